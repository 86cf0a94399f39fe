import Verif.Conf.SettingLemmas
import Mathlib.Data.List.Nodup
/-
C102-C106: the configuration after any command line and any configuration files.
-/
namespace Verif.Conf
open Verif.Res (Byte)
open Verif.Slurm (Json)

/-! ## C105: the last setting wins -/

theorem finish_field (env : Env) (payload : Bool) (c c' : Conf) (h : finish env payload c = .ok c') (k : Key)
    (hk : c'.flag ["daemon"] = true → k ≠ ["log", "output"] ∧ k ≠ ["validation-log", "output"]) : c'.field k = c.field k := by
  obtain ⟨_, _, _, ⟨_, rfl⟩ | ⟨h1, _, rfl⟩⟩ := finish_ok env payload c c' h
  · rfl
  · have : ((c.set ["log", "output"] (.word 0)).set ["validation-log", "output"] (.word 0)).flag ["daemon"] = c.flag ["daemon"] := by
      unfold Conf.flag
      rw [set_field, if_neg (by decide), set_field, if_neg (by decide)]
    rw [this] at hk
    obtain ⟨h2, h3⟩ := hk h1
    rw [set_field, if_neg h3, set_field, if_neg h2]

/-- C105: if the program starts, then the value of an option is the meaning of the last setting of it, on the command line or in a file (in the order they're given; within a file, the
order is the table's). Settings of `work-offline` are also settings of `rsync.enabled` and `http.enabled`. (As a daemon, the outputs of the logs are syslog.) -/
theorem C105_last (env : Env) (args : List (Nat × Option (List Byte))) (payload : Bool) (c : Conf) (h : handleFlagsConfig env args payload = .ok c)
    (pre post : List (Opt × Setting)) (o : Opt) (s : Setting) (hs : settings env args = pre ++ (o, s) :: post)
    (k : Key) (hpost : ∀ x ∈ post, ¬ Writes x.1 k) (hk : c.flag ["daemon"] = true → k ≠ ["log", "output"] ∧ k ≠ ["validation-log", "output"]) :
    (o.name = k → o.type ≠ .incidences → Means o s (c.field k)) ∧
    (o.type = .offline → (k = ["rsync", "enabled"] ∨ k = ["http", "enabled"]) → ∃ b, MeansBool s b ∧ c.field k = .bool (!b)) := by
  obtain ⟨c1, h1, h2⟩ := flags_ok env args payload c h
  rw [finish_field env payload c1 c h2 k hk]
  rw [hs] at h1
  have hm : ∀ x ∈ pre ++ (o, s) :: post, x.1 ∈ options := fun x hx => settings_mem env args x (by rw [hs]; exact hx)
  obtain ⟨c2, h3, h4⟩ := applyAll_split pre _ initial c1 h1
  rw [applyAll] at h4
  cases hp : parse o s c2 with
  | ok c3 =>
    rw [hp] at h4
    dsimp only at h4
    rw [applyAll_other post (fun x hx => hm x (by simp [hx])) k hpost c3 c1 h4]
    obtain ⟨_, k2, k3⟩ := parse_field o (hm (o, s) (by simp)) s c2 c3 hp
    exact ⟨fun hn hi => hn ▸ k2 hi, fun ht hk => k3 ht k hk⟩
  | fail e => rw [hp] at h4; cases h4
  | exit e => rw [hp] at h4; cases h4
  | ub => rw [hp] at h4; cases h4

/-- C105: an option that's never set has its default value. -/
theorem C105_unset (env : Env) (args : List (Nat × Option (List Byte))) (payload : Bool) (c : Conf) (h : handleFlagsConfig env args payload = .ok c)
    (k : Key) (hk : ∀ x ∈ settings env args, ¬ Writes x.1 k) (hd : c.flag ["daemon"] = true → k ≠ ["log", "output"] ∧ k ≠ ["validation-log", "output"]) :
    c.field k = (defaults.lookup k).getD (.uint 0) := by
  obtain ⟨c1, h1, h2⟩ := flags_ok env args payload c h
  rw [finish_field env payload c1 c h2 k hd]
  exact applyAll_other _ (settings_mem env args) k hk initial c1 h1

/-- C105: an option that's never set has its documented default. -/
theorem C105_defaults (env : Env) (args : List (Nat × Option (List Byte))) (payload : Bool) (c : Conf) (h : handleFlagsConfig env args payload = .ok c)
    (d : Key × Doc) (hd : d ∈ documentedDefaults) (hk : ∀ x ∈ settings env args, ¬ Writes x.1 d.1) (hdm : c.flag ["daemon"] = false) :
    ∃ o ∈ options, o.name = d.1 ∧ some (c.field d.1) = d.2.value o := by
  rw [C105_unset env args payload c h d.1 hk (by rw [hdm]; intro h; cases h)]
  have ht : documentedDefaults.all (fun d => match options.find? (fun o => o.name = d.1) with
      | some o => decide (some ((defaults.lookup d.1).getD (.uint 0)) = d.2.value o)
      | none => false) = true := rfl
  have ht := List.all_eq_true.1 ht d hd
  cases hf : options.find? (fun o => o.name = d.1) with
  | none => rw [hf] at ht; cases ht
  | some o =>
    rw [hf] at ht
    exact ⟨o, List.mem_of_find?_eq_some hf, by simpa using List.find?_some hf, of_decide_eq_true ht⟩

/-- C105: as a daemon, both logs go to syslog. -/
theorem C105_daemon (env : Env) (args : List (Nat × Option (List Byte))) (payload : Bool) (c : Conf) (h : handleFlagsConfig env args payload = .ok c)
    (hd : c.flag ["daemon"] = true) : c.field ["log", "output"] = .word 0 ∧ c.field ["validation-log", "output"] = .word 0 ∧ (lit "syslog", 0) ∈ outputWords := by
  obtain ⟨c1, h1, h2⟩ := flags_ok env args payload c h
  obtain ⟨_, _, _, ⟨h3, rfl⟩ | ⟨_, _, rfl⟩⟩ := finish_ok env payload c1 c h2
  · rw [h3] at hd; cases hd
  · exact ⟨by rw [set_field, if_neg (by decide), set_field, if_pos rfl], by rw [set_field, if_pos rfl], by decide⟩

/-! ## C102: the configuration is sane -/

theorem names_nodup : ∀ o ∈ options, ∀ o' ∈ options, o.name = o'.name → o = o' := by
  have h : (options.map (·.name)).Nodup := by decide
  intro o ho o' ho' hn
  exact List.inj_on_of_nodup_map h ho ho' hn

theorem num_inv (d : Key × Nat × Nat) (hd : d ∈ documented) (xs : List (Opt × Setting)) (hm : ∀ x ∈ xs, x.1 ∈ options) (c : Conf)
    (h : applyAll xs initial = .ok c) : ∃ n, c.field d.1 = .uint n ∧ d.2.1 ≤ n ∧ n ≤ d.2.2 := by
  refine applyAll_inv (fun c => ∃ n, c.field d.1 = .uint n ∧ d.2.1 ≤ n ∧ n ≤ d.2.2) ?_ xs hm initial c ?_ h
  · intro o ho s c c' hc hp
    obtain ⟨h1, h2, h3⟩ := parse_field o ho s c c' hp
    obtain ⟨o', ho', k1, k2, k3, k4⟩ := C64_bounds d hd
    by_cases hw : Writes o d.1
    · rcases hw with hw | ⟨_, hw⟩
      · have : o = o' := names_nodup o ho o' ho' (by rw [hw, k1])
        subst this
        have hM := h2 (by rw [k2]; intro h; cases h)
        rw [hw] at hM
        simp only [Means, k2] at hM
        obtain ⟨n, hn, hmin, hmax, _⟩ := hM
        exact ⟨n, hn, by omega, by omega⟩
      · exfalso
        have : ∀ d ∈ documented, ¬ (d.1 = ["rsync", "enabled"] ∨ d.1 = ["http", "enabled"]) := by decide
        exact this d hd hw
    · show ∃ n, c'.field d.1 = .uint n ∧ d.2.1 ≤ n ∧ n ≤ d.2.2
      rw [h1 d.1 hw]; exact hc
  · have : ∀ d ∈ documented, ∃ n ∈ [32, 4096, 3600, 600, 7200, 2, 60, 1, 4, 10, 30, 900, 100000, 1000000000, 20, 50, 43200],
        (defaults.lookup d.1).getD (.uint 0) = .uint n ∧ d.2.1 ≤ n ∧ n ≤ d.2.2 := by decide
    obtain ⟨n, _, h1⟩ := this d hd
    exact ⟨n, h1⟩

theorem mode_inv (xs : List (Opt × Setting)) (hm : ∀ x ∈ xs, x.1 ∈ options) (c : Conf)
    (h : applyAll xs initial = .ok c) : ∃ n, c.field ["mode"] = .word n ∧ n ≤ 2 := by
  refine applyAll_inv (fun c => ∃ n, c.field ["mode"] = .word n ∧ n ≤ 2) ?_ xs hm initial c ⟨0, rfl, by decide⟩ h
  intro o ho s c c' hc hp
  obtain ⟨h1, h2, h3⟩ := parse_field o ho s c c' hp
  by_cases hw : Writes o ["mode"]
  · rcases hw with hw | ⟨_, hw⟩
    · have ht : ∀ o ∈ options, o.name = ["mode"] → o.type = .words modeWords := by decide
      have hM := h2 (by rw [ht o ho hw]; intro h; cases h)
      rw [hw] at hM
      simp only [Means, ht o ho hw] at hM
      obtain ⟨t, n, hn, hin, _⟩ := hM
      refine ⟨n, hn, ?_⟩
      have : ∀ w ∈ modeWords, w.2 ≤ 2 := by decide
      exact this _ hin
    · exact absurd hw (by decide)
  · show ∃ n, c'.field ["mode"] = .word n ∧ n ≤ 2
    rw [h1 _ hw]; exact hc

theorem validate_server (env : Env) (payload : Bool) (c : Conf) (h : validateConfig env payload c = .ok c) (hm : c.nat ["mode"] ≠ 2) (hi : c.flag ["init-tals"] = false) :
    payload = false ∧ (∃ tal, c.text ["tal"] = some tal ∧ (env.stat tal = some .file ∨ env.stat tal = some .dir)) ∧
    c.nat ["server", "interval", "refresh"] ≤ c.nat ["server", "interval", "expire"] ∧
    c.nat ["server", "interval", "retry"] ≤ c.nat ["server", "interval", "expire"] ∧
    (∀ slurm, c.text ["slurm"] = some slurm → env.stat slurm = some .file ∨ env.stat slurm = some .dir) := by
  have hv : ∀ p, validFileOrDir env p true = true → env.stat p = some .file ∨ env.stat p = some .dir := by
    intro p hp
    unfold validFileOrDir at hp
    cases hs : env.stat p with
    | none => rw [hs] at hp; cases hp
    | some k => cases k <;> simp_all
  unfold validateConfig at h
  rw [if_neg hm] at h
  by_cases hp : payload = true
  · rw [if_pos hp] at h; cases h
  · rw [if_neg hp] at h
    cases ht : c.text ["tal"] with
    | none => rw [ht] at h; cases h
    | some tal =>
      rw [ht] at h
      dsimp only at h
      rw [hi] at h
      by_cases h1 : validFileOrDir env tal (!false) = false
      · rw [if_pos h1] at h; cases h
      · rw [if_neg h1, if_neg (by decide)] at h
        have h1' : validFileOrDir env tal true = true := by simpa using h1
        by_cases h2 : c.nat ["server", "interval", "expire"] < c.nat ["server", "interval", "refresh"]
          ∨ c.nat ["server", "interval", "expire"] < c.nat ["server", "interval", "retry"]
        · rw [if_pos h2] at h; cases h
        · rw [if_neg h2] at h
          refine ⟨by simpa using hp, ⟨tal, rfl, hv tal h1'⟩, by omega, by omega, ?_⟩
          intro slurm hs
          rw [hs] at h
          dsimp only at h
          by_cases h3 : validFileOrDir env slurm true = false
          · rw [if_pos h3] at h; cases h
          · exact hv slurm (by simpa using h3)

/-- C102: whatever the command line and the files, if the program starts then every numeric option is in its documented range and, unless it's only going to print a file, the
expire interval isn't less than the others, the TALs exist, and so does the SLURM file, if any. -/
theorem C102 (env : Env) (args : List (Nat × Option (List Byte))) (payload : Bool) (c : Conf) (h : handleFlagsConfig env args payload = .ok c) :
    (∀ d ∈ documented, ∃ n, c.field d.1 = .uint n ∧ d.2.1 ≤ n ∧ n ≤ d.2.2) ∧
    (∃ m, c.field ["mode"] = .word m ∧ m ≤ 2) ∧
    (c.field ["mode"] ≠ .word 2 →
      payload = false ∧ (∃ tal, c.field ["tal"] = .str (some tal) ∧ (env.stat tal = some .file ∨ env.stat tal = some .dir)) ∧
      (∃ refresh retry expire, c.field ["server", "interval", "refresh"] = .uint refresh ∧ c.field ["server", "interval", "retry"] = .uint retry ∧
        c.field ["server", "interval", "expire"] = .uint expire ∧ refresh ≤ expire ∧ retry ≤ expire) ∧
      (∀ slurm, c.field ["slurm"] = .str (some slurm) → env.stat slurm = some .file ∨ env.stat slurm = some .dir)) := by
  obtain ⟨c1, h1, h2⟩ := flags_ok env args payload c h
  obtain ⟨k1, k2, k3, _⟩ := finish_ok env payload c1 c h2
  have hf : ∀ k, (k ≠ ["log", "output"] ∧ k ≠ ["validation-log", "output"]) → c.field k = c1.field k :=
    fun k hk => finish_field env payload c1 c h2 k (fun _ => hk)
  have hm := settings_mem env args
  have hnum : ∀ d ∈ documented, ∃ n, c.field d.1 = .uint n ∧ d.2.1 ≤ n ∧ n ≤ d.2.2 := by
    intro d hd
    have : ∀ d ∈ documented, d.1 ≠ ["log", "output"] ∧ d.1 ≠ ["validation-log", "output"] := by decide
    rw [hf d.1 (this d hd)]
    exact num_inv d hd _ hm c1 h1
  obtain ⟨m, hm1, hm2⟩ := mode_inv _ hm c1 h1
  refine ⟨hnum, ⟨m, by rw [hf _ (by decide)]; exact hm1, hm2⟩, ?_⟩
  intro hmode
  rw [hf _ (by decide)] at hmode
  have hne : c1.nat ["mode"] ≠ 2 := by
    unfold Conf.nat
    rw [hm1] at hmode ⊢
    intro h; apply hmode; rw [← h]
  obtain ⟨v1, ⟨tal, v2, v3⟩, v4, v5, v6⟩ := validate_server env payload c1 k1 hne k2
  refine ⟨v1, ⟨tal, ?_, v3⟩, ?_, ?_⟩
  · rw [hf _ (by decide)]
    unfold Conf.text at v2
    cases ht : c1.field ["tal"] with
    | str s => rw [ht] at v2; dsimp only at v2; rw [v2]
    | uint n => rw [ht] at v2; cases v2
    | bool n => rw [ht] at v2; cases v2
    | strs n => rw [ht] at v2; cases v2
    | word n => rw [ht] at v2; cases v2
  · obtain ⟨n1, e1, _⟩ := hnum (["server", "interval", "refresh"], 1, 86400) (by decide)
    obtain ⟨n2, e2, _⟩ := hnum (["server", "interval", "retry"], 1, 7200) (by decide)
    obtain ⟨n3, e3, _⟩ := hnum (["server", "interval", "expire"], 600, 172800) (by decide)
    refine ⟨n1, n2, n3, e1, e2, e3, ?_, ?_⟩
    · rw [hf _ (by decide)] at e1 e3; unfold Conf.nat at v4; dsimp only at e1 e3; rw [e1, e3] at v4; exact v4
    · rw [hf _ (by decide)] at e2 e3; unfold Conf.nat at v5; dsimp only at e2 e3; rw [e2, e3] at v5; exact v5
  · intro slurm hs
    rw [hf _ (by decide)] at hs
    exact v6 slurm (by unfold Conf.text; rw [hs])

/-! ## C103: offline means offline -/

/-- C103, if no later setting (or, in the same file, any setting) of `rsync.enabled` or `http.enabled`: the last `work-offline` decides whether the protocols are used. -/
theorem C103_partial (env : Env) (args : List (Nat × Option (List Byte))) (payload : Bool) (c : Conf) (h : handleFlagsConfig env args payload = .ok c)
    (pre post : List (Opt × Setting)) (o : Opt) (s : Setting) (hs : settings env args = pre ++ (o, s) :: post) (ho : o.name = ["work-offline"])
    (hpost : ∀ x ∈ post, x.1.name ≠ ["work-offline"] ∧ x.1.name ≠ ["rsync", "enabled"] ∧ x.1.name ≠ ["http", "enabled"]) :
    ∃ b, MeansBool s b ∧ c.field ["work-offline"] = .bool b ∧ c.field ["rsync", "enabled"] = .bool (!b) ∧ c.field ["http", "enabled"] = .bool (!b) := by
  have hmem : ∀ x ∈ pre ++ (o, s) :: post, x.1 ∈ options := fun x hx => settings_mem env args x (by rw [hs]; exact hx)
  have htab : ∀ o ∈ options, o.name = ["work-offline"] ↔ o.type = .offline := by decide
  have ht := (htab o (hmem (o, s) (by simp))).1 ho
  have hw : ∀ k, (k = ["work-offline"] ∨ k = ["rsync", "enabled"] ∨ k = ["http", "enabled"]) → ∀ x ∈ post, ¬ Writes x.1 k := by
    intro k hk x hx hw
    obtain ⟨n1, n2, n3⟩ := hpost x hx
    rcases hw with hw | ⟨hw, _⟩
    · rcases hk with rfl | rfl | rfl
      · exact n1 hw
      · exact n2 hw
      · exact n3 hw
    · exact n1 ((htab x.1 (hmem x (by simp [hx]))).2 hw)
  have e1 := (C105_last env args payload c h pre post o s hs ["work-offline"] (hw _ (by simp)) (fun _ => by decide)).1 ho (by rw [ht]; intro h; cases h)
  obtain ⟨b2, m2, e2⟩ := (C105_last env args payload c h pre post o s hs ["rsync", "enabled"] (hw _ (by simp)) (fun _ => by decide)).2 ht (by simp)
  obtain ⟨b3, m3, e3⟩ := (C105_last env args payload c h pre post o s hs ["http", "enabled"] (hw _ (by simp)) (fun _ => by decide)).2 ht (by simp)
  simp only [Means, ht] at e1
  obtain ⟨b1, e1, m1⟩ := e1
  have huniq : ∀ b b', MeansBool s b → MeansBool s b' → b = b' := by
    intro b b' hb hb'
    cases s with
    | argv a =>
      have h1 := (argvBool_iff a b).2 hb
      have h2 := (argvBool_iff a b').2 hb'
      rw [h1] at h2; injection h2
    | json j =>
      have h1 : j = .bool b := hb
      have h2 : j = .bool b' := hb'
      rw [h1] at h2; injection h2
  refine ⟨b1, m1, e1, ?_, ?_⟩
  · rw [e2, huniq b2 b1 m2 m1]
  · rw [e3, huniq b3 b1 m3 m1]

/-- The file `{ "tal": "t", "work-offline": true, "rsync": { "enabled": true }, "http": { "enabled": true } }` (compare the example of docs/usage.md, which sets the three). -/
def offlineFile : Json :=
  .obj [("tal", .str (lit "t")), ("work-offline", .bool true), ("rsync", .obj [("enabled", .bool true)]), ("http", .obj [("enabled", .bool true)])]

/-- A system with just that file. -/
def offlineEnv (file : Json) : Env := ⟨fun _ => some file, fun _ => some .dir, 0, 0, 0⟩

/-- C103 is false of the program: with that configuration file (whatever its order is), `work-offline` is set and both protocols are used. -/
theorem C103_refuted : ∃ c, handleFlagsConfig (offlineEnv offlineFile) [(102, some (lit "f"))] false = .ok c ∧
    c.field ["work-offline"] = .bool true ∧ c.field ["rsync", "enabled"] = .bool true ∧ c.field ["http", "enabled"] = .bool true := by
  refine ⟨_, rfl, ?_, ?_, ?_⟩ <;> decide

/- Non-vacuity of C102, C103_partial and C105: `--tal=t --server.interval.refresh=10 --work-offline`. -/
example : ∃ c, handleFlagsConfig (offlineEnv .null) [(116, some (lit "t")), (5004, some (lit "10")), (1005, none)] false = .ok c ∧
    c.field ["server", "interval", "refresh"] = .uint 10 ∧ c.field ["work-offline"] = .bool true ∧ c.field ["rsync", "enabled"] = .bool false ∧
    c.field ["server", "interval", "retry"] = .uint 600 := by
  refine ⟨_, rfl, ?_, ?_, ?_, ?_⟩ <;> decide
example : ∃ o, options.find? (fun o => o.getopt && o.id == 1005) = some o ∧ o.name = ["work-offline"] ∧
    (settings (offlineEnv .null) [(116, some (lit "t")), (5004, some (lit "10")), (1005, none)]).map (·.1.name) =
      [["tal"], ["server", "interval", "refresh"]] ++ o.name :: [] := ⟨_, rfl, rfl, by decide⟩
/- An interval of expiration less than the other is rejected. -/
example : handleFlagsConfig (offlineEnv .null) [(116, some (lit "t")), (5004, some (lit "8000"))] false = .fail (-22) := by rfl

/-! ## C104: configuration files don't crash the program -/

theorem argv_ub (o : Opt) (ho : o ∈ options) (hg : o.getopt = true) (hh : o.handler = .none) (a : Option (List Byte)) (ha : o.type.requiresArg = true → a ≠ none) (c : Conf) :
    parseArgv o a c ≠ .ub := by
  have htab : ∀ o ∈ options, o.getopt = true → o.handler = .none → o.type ≠ .incidences ∧ o.type ≠ .callback := by decide
  obtain ⟨t1, t2⟩ := htab o ho hg hh
  unfold parseArgv
  cases ht : o.type with
  | uint =>
    dsimp only
    cases a with
    | none => intro h; cases h
    | some t =>
      cases t with
      | nil => intro h; cases h
      | cons x r =>
        unfold parseArgvUint
        dsimp only
        repeat' split
        all_goals intro h; cases h
  | bool =>
    dsimp only
    unfold parseArgvBool
    split <;> (intro h; cases h)
  | offline =>
    dsimp only
    unfold parseArgvOffline
    split <;> (intro h; cases h)
  | string =>
    dsimp only
    unfold parseArgvString
    split <;> (intro h; cases h)
  | strings =>
    cases a with
    | none => exact absurd rfl (ha (by rw [ht]; rfl))
    | some s =>
      dsimp only
      rw [argvStrings_eq]
      split <;> (intro h; cases h)
  | words ws =>
    cases a with
    | none => exact absurd rfl (ha (by rw [ht]; rfl))
    | some s =>
      dsimp only
      unfold parseArgvWord
      dsimp only
      split <;> (intro h; cases h)
  | incidences => exact absurd ht t1
  | callback => exact absurd ht t2

theorem initActions_ub (l : List Json) (c : Conf) : initActions l c ≠ .ub := by
  induction l generalizing c with
  | nil => intro h; cases h
  | cons j l ih =>
    rw [initActions]
    cases hp : initAction j c with
    | ok c1 => exact ih c1
    | fail e => intro h; cases h
    | exit e => intro h; cases h
    | ub =>
      exfalso
      unfold initAction at hp
      repeat' split at hp
      all_goals cases hp

theorem json_ub (o : Opt) (ho : o ∈ options) (hj : o.json = true) (j : Json) (hn : (∃ ws, o.type = .words ws) → j ≠ .null) (c : Conf) : parseJson o j c ≠ .ub := by
  have htab : ∀ o ∈ options, o.json = true → o.type ≠ .callback := by decide
  have t2 := htab o ho hj
  unfold parseJson
  cases ht : o.type with
  | uint =>
    dsimp only
    unfold parseJsonUint
    repeat' split
    all_goals intro h; cases h
  | bool =>
    dsimp only
    unfold parseJsonBool
    split <;> (intro h; cases h)
  | offline =>
    dsimp only
    unfold parseJsonOffline
    split <;> (intro h; cases h)
  | string =>
    dsimp only
    unfold parseJsonString
    split
    · intro h; cases h
    · split <;> (intro h; cases h)
    · unfold parseArgvString; split <;> (intro h; cases h)
  | strings =>
    dsimp only
    unfold parseJsonStrings
    repeat' split
    all_goals intro h; cases h
  | words ws =>
    dsimp only
    unfold parseJsonWord
    have hnn := hn ⟨ws, ht⟩
    cases j with
    | null => exact absurd rfl hnn
    | str s =>
      unfold parseJsonStr parseArgvWord
      dsimp only
      split <;> (intro h; cases h)
    | bool s => intro h; cases h
    | int s => intro h; cases h
    | real => intro h; cases h
    | arr s => intro h; cases h
    | obj s => intro h; cases h
  | incidences =>
    dsimp only
    cases j with
    | arr l => exact initActions_ub l c
    | null => intro h; cases h
    | str s => intro h; cases h
    | bool s => intro h; cases h
    | int s => intro h; cases h
    | real => intro h; cases h
    | obj s => intro h; cases h
  | callback => exact absurd ht t2

theorem applyJson_ub (xs : List (Opt × Setting)) (hx : ∀ x ∈ xs, ∀ c, parse x.1 x.2 c ≠ .ub) (c : Conf) : applyAll xs c ≠ .ub := by
  induction xs generalizing c with
  | nil => intro h; cases h
  | cons x xs ih =>
    rw [applyAll]
    cases hp : parse x.1 x.2 c with
    | ok c1 => exact ih (fun y hy => hx y (by simp [hy])) c1
    | fail e => intro h; cases h
    | exit e => intro h; cases h
    | ub => exact absurd hp (hx x (by simp) c)

/-- C104, unless a configuration file has `null` for an option whose values are words (`mode`, `log.level`, ...): for every command line and file, the program neither dereferences NULL nor
leaves a buffer while it reads its configuration. -/
theorem C104_partial (env : Env) (args : List (Nat × Option (List Byte))) (payload : Bool) (hg : FromGetopt args)
    (hnull : ∀ file root, (102, some file) ∈ args → env.load file = some root →
      ∀ o ∈ options, (∃ ws, o.type = .words ws) → findJson root o.name ≠ some .null) :
    handleFlagsConfig env args payload ≠ .ub := by
  have hopts : ∀ c, handleOpts env options args c ≠ .ub := by
    induction args with
    | nil => intro c h; cases h
    | cons a args ih =>
      intro c
      obtain ⟨id, arg⟩ := a
      rw [handleOpts]
      have hone : handleOpt env options id arg c ≠ .ub := by
        unfold handleOpt
        cases hf : options.find? (fun o => o.getopt && o.id == id) with
        | none => intro h; cases h
        | some o =>
          obtain ⟨f1, f2, f3⟩ := find_mem id o hf
          dsimp only
          by_cases hh : o.handler = .none
          · rw [if_pos hh]
            exact argv_ub o f1 f2 hh arg ((hg (id, arg) (by simp)).2 o f1 f2 f3) c
          · rw [if_neg hh]
            unfold runHandler
            cases ho : o.handler with
            | none => exact absurd ho hh
            | help => intro h; cases h
            | usage => intro h; cases h
            | version => intro h; cases h
            | json =>
              have hid : ∀ o ∈ options, o.handler = .json → o.id = 102 := by decide
              have hid := hid o f1 ho
              cases arg with
              | none => intro h; cases h
              | some file =>
                dsimp only
                unfold setConfigFromFile
                cases hl : env.load file with
                | none => intro h; cases h
                | some root =>
                  dsimp only
                  rw [jsonToConfig_eq]
                  apply applyJson_ub
                  intro x hx c
                  obtain ⟨g1, g2, j, g3, g4⟩ := fileSettings_mem root options x hx
                  rw [g3]
                  refine json_ub x.1 g1 g2 j ?_ c
                  intro hw hj
                  refine hnull file root ?_ hl x.1 g1 hw (by rw [g4, hj])
                  rw [← f3, hid]; simp
      cases hp : handleOpt env options id arg c with
      | ok c1 =>
        exact ih (fun a ha => hg a (by simp [ha])) (fun f r hf => hnull f r (by simp [hf])) c1
      | fail e => intro h; cases h
      | exit e => intro h; cases h
      | ub => exact absurd hp hone
  unfold handleFlagsConfig
  cases ho : handleOpts env options args initial with
  | ok c =>
    dsimp only
    unfold finish
    have hv : validateConfig env payload c ≠ .ub := by
      unfold validateConfig
      repeat' split
      all_goals intro h; cases h
    cases hv2 : validateConfig env payload c with
    | ok c =>
      dsimp only
      repeat' split
      all_goals intro h; cases h
    | fail e => intro h; cases h
    | exit e => intro h; cases h
    | ub => exact absurd hv2 hv
  | fail e => intro h; cases h
  | exit e => intro h; cases h
  | ub => exact absurd ho (hopts initial)

/-- C104 is false of the program: a configuration file `{ "mode": null }` makes it compare NULL. -/
theorem C104_refuted : handleFlagsConfig (offlineEnv (.obj [("mode", .null)])) [(102, some (lit "f"))] false = .ub := by rfl

/- Non-vacuity: the file of C103_refuted. -/
example : FromGetopt [(102, some (lit "f"))] ∧ ∀ o ∈ options, (∃ ws, o.type = .words ws) → findJson offlineFile o.name ≠ some .null := by
  constructor
  · intro a ha
    rw [List.mem_singleton] at ha
    subst ha
    refine ⟨Or.inr ?_, ?_⟩
    · decide
    · intro _ _ _ _ _ h; cases h
  · have : ∀ o ∈ options, (match o.type with | .words _ => (findJson offlineFile o.name).isNone | _ => true) = true := by decide
    rintro o ho ⟨ws, hw⟩ h
    have := this o ho
    rw [hw, h] at this
    cases this

/-! ## C106: lists -/

/-- C106: the list of addresses given on the command line is the list of the non-empty texts between commas, if there are at most 50 of them; the array is always filled exactly. -/
theorem C106 (env : Env) (s : List Byte) (c : Conf) :
    handleOpt env options 5000 (some s) c =
      if (fieldsOf 0x2C#8 s).length ≤ 50 then .ok (c.set ["server", "address"] (.strs (fieldsOf 0x2C#8 s))) else .fail (-22) := by
  have e : handleOpt env options 5000 (some s) c = parseArgvStrings { id := 5000, name := ["server", "address"], type := .strings, min := 0, max := 50 } (some s) c := rfl
  rw [e, argvStrings_eq]
  by_cases h : (fieldsOf 0x2C#8 s).length ≤ 50
  · rw [if_pos h, if_neg (by simp only; omega)]
  · rw [if_neg h, if_pos (by simp only; omega)]

example : fieldsOf 0x2C#8 (lit ",::1,,192.0.2.1#80,") = [lit "::1", lit "192.0.2.1#80"] := by decide

end Verif.Conf
