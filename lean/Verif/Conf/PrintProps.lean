import Verif.Conf.ModelPrint
import Verif.Conf.Props2
/-
C203: What the program says is its configuration.
-/
namespace Verif.Conf
open Verif.Res (Byte)
open Verif.Slurm (Json)

/-! ### Specification -/

/-- The value isn't set: there isn't a text for it. -/
def Unset (o : Opt) (v : Val) : Prop := v = .str none ∨ (o.name = ["file-type"] ∧ v = .word 0)

/-- The option's name, as in the command line. -/
def fullName (o : Opt) : Text := ((o.name.map lit).intersperse (lit ".")).flatten

/-- The messages tell that the option has the value: "name: text", where the text is one that sets the option to that value; lists are "name:" and one message for each element. -/
def Tells (o : Opt) (v : Val) (l : List Text) : Prop :=
  if o.type = .strings then
    ∃ ts, v = .strs ts ∧ l = (fullName o ++ lit ":") :: if ts = [] then [lit "  <Nothing>"] else ts.map (lit "  " ++ ·)
  else ∃ t, l = [fullName o ++ lit ": " ++ t] ∧ (Means o (.argv (some t)) v ∨ (Unset o v ∧ t = lit "(null)"))

/-- The word for an action in the configuration files. -/
def IsActionWord (t : Text) (a : Action) : Prop := (t = lit "ignore" ∧ a = .ignore) ∨ (t = lit "warn" ∧ a = .warn) ∨ (t = lit "error" ∧ a = .error)

/-- The messages tell the action of each incidence. -/
def TellsIncidences (c : Conf) (l : List Text) : Prop :=
  ∃ head rest, l = head :: rest ∧ rest.length = incidenceTable.length ∧
    ∀ (i : Nat) nm d, incidenceTable[i]? = some (nm, d) → ∃ desc w, rest[i]? = some (lit "  " ++ nm ++ lit " (" ++ desc ++ lit "): " ++ w) ∧ IsActionWord w (c.incid i)

/-- The options that are part of the configuration. -/
def shown : List Opt := options.filter (·.handler = .none)

/-- The text, if the library writes "(null)" for NULL (glibc). -/
def glibc : Null := some (lit "(null)")

/-! ### Lemmas -/

/-- The value is one that the option can have. -/
def valOk (o : Opt) (v : Val) : Bool :=
  match o.type, v with
  | .uint, .uint n => decide (o.min ≤ n) && decide (n ≤ o.max)
  | .bool, .bool _ => true
  | .offline, .bool _ => true
  | .string, .str none => true
  | .string, .str (some t) => decide (t ≠ [])
  | .strings, .strs _ => true
  | .words ws, .word n => ws.any (·.2 = n) || (decide (o.name = ["file-type"]) && decide (n = 0))
  | .incidences, _ => true
  | _, _ => false

theorem valOk_of_means (o : Opt) (s : Setting) (v : Val) (h : Means o s v) : valOk o v = true := by
  cases ht : o.type with
  | uint => simp only [Means, ht] at h; obtain ⟨n, rfl, h1, h2, _⟩ := h; simp [valOk, ht, h1, h2]
  | bool => simp only [Means, ht] at h; obtain ⟨b, rfl, _⟩ := h; simp [valOk, ht]
  | offline => simp only [Means, ht] at h; obtain ⟨b, rfl, _⟩ := h; simp [valOk, ht]
  | string =>
    simp only [Means, ht] at h
    rcases h with ⟨t, rfl, h1, _⟩ | ⟨rfl, _⟩
    · simp [valOk, ht, h1]
    · simp [valOk, ht]
  | strings => simp only [Means, ht] at h; obtain ⟨l, rfl, _⟩ := h; simp [valOk, ht]
  | words ws =>
    simp only [Means, ht] at h
    obtain ⟨t, n, rfl, h1, _⟩ := h
    have : ws.any (·.2 = n) = true := List.any_eq_true.2 ⟨_, h1, by simp⟩
    simp [valOk, ht, this]
  | incidences => simp only [Means, ht] at h
  | callback => simp only [Means, ht] at h

theorem initial_ok : ∀ o ∈ options, o.handler = .none → valOk o (initial.field o.name) = true := by decide +kernel

theorem enabled_bool : ∀ o ∈ options, (o.name = ["rsync", "enabled"] ∨ o.name = ["http", "enabled"]) → o.type = .bool := by decide +kernel

theorem incid_name : ∀ o ∈ options, o.type = .incidences → o.name = ["incidences"] := by decide +kernel

theorem ok_inv (xs : List (Opt × Setting)) (hm : ∀ x ∈ xs, x.1 ∈ options) (c : Conf) (h : applyAll xs initial = .ok c) :
    ∀ o ∈ options, o.handler = .none → valOk o (c.field o.name) = true := by
  refine applyAll_inv (fun c => ∀ o ∈ options, o.handler = .none → valOk o (c.field o.name) = true) ?_ xs hm initial c initial_ok h
  intro o ho s c c' hc hp o' ho' hh
  obtain ⟨h1, h2, h3⟩ := parse_field o ho s c c' hp
  by_cases hw : Writes o o'.name
  · rcases hw with hw | ⟨hw1, hw2⟩
    · have : o = o' := names_nodup o ho o' ho' hw
      subst this
      by_cases hi : o.type = .incidences
      · simp [valOk, hi]
      · exact valOk_of_means o s _ (h2 hi)
    · obtain ⟨b, _, hb⟩ := h3 hw1 _ hw2
      rw [hb]
      simp [valOk, enabled_bool o' ho' hw2]
  · rw [h1 _ hw]; exact hc o' ho' hh

theorem output_words : ∀ o ∈ options, (o.name = ["log", "output"] ∨ o.name = ["validation-log", "output"]) → valOk o (.word 0) = true := by decide +kernel

/-- The values of the fields of an accepted configuration. -/
theorem accepted_ok (env : Env) (args : List (Nat × Option (List Byte))) (payload : Bool) (c : Conf) (h : handleFlagsConfig env args payload = .ok c) :
    ∀ o ∈ options, o.handler = .none → valOk o (c.field o.name) = true := by
  obtain ⟨c1, h1, h2⟩ := flags_ok env args payload c h
  have h3 := ok_inv _ (settings_mem env args) c1 h1
  obtain ⟨_, _, _, ⟨_, rfl⟩ | ⟨_, _, rfl⟩⟩ := finish_ok env payload c1 c h2
  · exact h3
  · intro o ho hh
    rw [set_field]
    by_cases k1 : o.name = ["validation-log", "output"]
    · rw [if_pos k1]; exact output_words o ho (Or.inr k1)
    · rw [if_neg k1, set_field]
      by_cases k2 : o.name = ["log", "output"]
      · rw [if_pos k2]; exact output_words o ho (Or.inl k2)
      · rw [if_neg k2]; exact h3 o ho hh

theorem numeral_dec : ∀ f n, n ≤ f → Numeral (decDigits f n) n
  | 0, n, h => by
    obtain rfl : n = 0 := by omega
    exact .one 0 (by omega)
  | f + 1, n, h => by
    rw [decDigits]
    by_cases hn : n < 10
    · rw [if_pos hn]; exact .one n hn
    · rw [if_neg hn]
      have h1 := Numeral.snoc _ (n / 10) (n % 10) (numeral_dec f (n / 10) (by omega)) (by omega)
      have h2 : 10 * (n / 10) + n % 10 = n := by omega
      rwa [h2] at h1

theorem max_small : ∀ o ∈ options, o.max < 2 ^ 64 := by decide +kernel

/-- What's printed for each word is that word. -/
theorem words_printed : ∀ o ∈ options, ∀ ws, o.type = .words ws → ∀ w ∈ ws, printWord ws w.2 = some w.1 := by
  intro o ho ws ht
  have : ∀ o ∈ options, (match o.type with | .words ws => ws.all fun w => decide (printWord ws w.2 = some w.1) | _ => true) = true := by decide +kernel
  have h := this o ho
  rw [ht] at h
  intro w hw
  simpa using List.all_eq_true.1 h w hw

theorem names_printed : ∀ o ∈ options, nameOf o.name = fullName o := by decide +kernel

theorem ft_words : ∀ o ∈ options, o.name = ["file-type"] → o.type = .words ftWords := by decide +kernel

/-- What's printed for a field: everything, unless it's NULL. -/
theorem printField_tells (o : Opt) (ho : o ∈ options) (hh : o.handler = .none) (hi : o.type ≠ .incidences) (c : Conf) (hv : valOk o (c.field o.name) = true) (null : Null) :
    (Unset o (c.field o.name) ∧ printField null c o = null.map fun t => [nameOf o.name ++ lit ": " ++ t]) ∨
    (¬ Unset o (c.field o.name) ∧ ∃ l, printField null c o = some l ∧ Tells o (c.field o.name) l) := by
  cases ht : o.type with
  | uint =>
    cases hf : c.field o.name with
    | uint n =>
      right
      refine ⟨by simp [Unset], _, by simp only [printField, ht, Conf.nat, hf, line, str, Option.map_some]; rfl, ?_⟩
      rw [hf] at hv
      simp only [valOk, ht, Bool.and_eq_true, decide_eq_true_eq] at hv
      have := max_small o ho
      unfold Tells
      rw [← names_printed o ho]
      rw [if_neg (by rw [ht]; intro h; cases h)]
      refine ⟨_, rfl, Or.inl ?_⟩
      simp only [Means, ht]
      exact ⟨n, rfl, hv.1, hv.2, _, rfl, [], [], _, n, rfl, (fun _ h => by cases h), numeral_dec n n (Nat.le_refl n), by omega, Or.inl ⟨Or.inl rfl, rfl⟩⟩
    | _ => rw [hf] at hv; simp [valOk, ht] at hv
  | bool =>
    cases hf : c.field o.name with
    | bool b =>
      right
      refine ⟨by simp [Unset], _, by simp only [printField, ht, Conf.flag, hf, line, str, Option.map_some]; rfl, ?_⟩
      unfold Tells
      rw [← names_printed o ho]
      rw [if_neg (by rw [ht]; intro h; cases h)]
      refine ⟨_, rfl, Or.inl ?_⟩
      simp only [Means, ht]
      refine ⟨b, rfl, ?_⟩
      cases b <;> simp [MeansBool]
    | _ => rw [hf] at hv; simp [valOk, ht] at hv
  | offline =>
    cases hf : c.field o.name with
    | bool b =>
      right
      refine ⟨by simp [Unset], _, by simp only [printField, ht, Conf.flag, hf, line, str, Option.map_some]; rfl, ?_⟩
      unfold Tells
      rw [← names_printed o ho]
      rw [if_neg (by rw [ht]; intro h; cases h)]
      refine ⟨_, rfl, Or.inl ?_⟩
      simp only [Means, ht]
      refine ⟨b, rfl, ?_⟩
      cases b <;> simp [MeansBool]
    | _ => rw [hf] at hv; simp [valOk, ht] at hv
  | string =>
    cases hf : c.field o.name with
    | str s =>
      cases s with
      | none =>
        left
        refine ⟨Or.inl rfl, ?_⟩
        simp only [printField, ht, Conf.text, hf, line, str]
      | some t =>
        right
        refine ⟨by simp [Unset], _, by simp only [printField, ht, Conf.text, hf, line, str, Option.map_some]; rfl, ?_⟩
        rw [hf] at hv
        simp only [valOk, ht, decide_eq_true_eq] at hv
        unfold Tells
        rw [← names_printed o ho]
        rw [if_neg (by rw [ht]; intro h; cases h)]
        refine ⟨_, rfl, Or.inl ?_⟩
        simp only [Means, ht]
        exact Or.inl ⟨t, rfl, hv, rfl⟩
    | _ => rw [hf] at hv; simp [valOk, ht] at hv
  | strings =>
    cases hf : c.field o.name with
    | strs l =>
      right
      refine ⟨by simp [Unset], _, by simp only [printField, ht, hf]; rfl, ?_⟩
      unfold Tells
      rw [← names_printed o ho]
      rw [if_pos ht]
      refine ⟨l, rfl, ?_⟩
      cases l <;> simp
    | _ => rw [hf] at hv; simp [valOk, ht] at hv
  | words ws =>
    cases hf : c.field o.name with
    | word n =>
      by_cases hu : Unset o (.word n)
      · left
        refine ⟨hu, ?_⟩
        rcases hu with hu | ⟨hu1, hu2⟩
        · cases hu
        · cases hu2
          have := ft_words o ho hu1
          rw [ht] at this
          cases this
          have e : printWord ftWords 0 = none := by decide +kernel
          simp only [printField, ht, Conf.nat, hf, line, e, str]
      · right
        rw [hf] at hv
        have hm : ∃ t, (t, n) ∈ ws := by
          simp only [valOk, ht, Bool.or_eq_true, Bool.and_eq_true, decide_eq_true_eq] at hv
          rcases hv with hv | ⟨hv1, hv2⟩
          · obtain ⟨w, hw1, hw2⟩ := List.any_eq_true.1 hv
            have e : w.2 = n := by simpa using hw2
            exact ⟨w.1, by rw [← e]; exact hw1⟩
          · exact absurd (Or.inr ⟨hv1, by rw [hv2]⟩) hu
        obtain ⟨t, htn⟩ := hm
        have e := words_printed o ho ws ht _ htn
        refine ⟨hu, [nameOf o.name ++ lit ": " ++ t], by simp only [printField, ht, Conf.nat, hf, line, str, e, Option.map_some], ?_⟩
        unfold Tells
        rw [← names_printed o ho]
        rw [if_neg (by rw [ht]; intro h; cases h)]
        refine ⟨_, rfl, Or.inl ?_⟩
        simp only [Means, ht]
        exact ⟨t, n, rfl, htn, rfl⟩
    | _ => rw [hf] at hv; simp [valOk, ht] at hv
  | incidences => exact absurd ht hi
  | callback => cases hf : c.field o.name <;> rw [hf] at hv <;> simp [valOk, ht] at hv

theorem incidencePrint_tells (c : Conf) : TellsIncidences c (incidencePrint c) := by
  refine ⟨_, _, rfl, rfl, ?_⟩
  intro i nm d hi
  have hlt : i < 6 := by
    obtain ⟨h, _⟩ := List.getElem?_eq_some_iff.1 hi
    exact h
  refine ⟨(descriptions[i]?).getD [], action2str (c.incid i), ?_, ?_⟩
  · rw [List.getElem?_map, List.getElem?_range hlt, Option.map_some, hi]; rfl
  · cases c.incid i
    · exact Or.inl ⟨rfl, rfl⟩
    · exact Or.inr (Or.inl ⟨rfl, rfl⟩)
    · exact Or.inr (Or.inr ⟨rfl, rfl⟩)

theorem printFields_some (null : Null) (c : Conf) (lines : Opt → List Text) : ∀ (os : List Opt), (∀ o ∈ os, o.handler = .none → printField null c o = some (lines o)) →
    printFields null c os = some ((os.filter (·.handler = .none)).flatMap lines)
  | [], _ => rfl
  | o :: os, h => by
    have ih := printFields_some null c lines os fun x hx => h x (List.mem_cons_of_mem _ hx)
    rw [printFields]
    by_cases hh : o.handler = .none
    · rw [if_pos hh, h o List.mem_cons_self hh, ih]
      simp [hh]
    · rw [if_neg hh, ih]
      simp [hh]

theorem printFields_none (null : Null) (c : Conf) (o : Opt) (hh : o.handler = .none) (h : printField null c o = none) : ∀ (os : List Opt), o ∈ os → printFields null c os = none
  | [], hm => by cases hm
  | x :: os, hm => by
    rw [printFields]
    rcases List.mem_cons.1 hm with rfl | hm
    · rw [if_pos hh, h]
    · rw [printFields_none null c o hh h os hm]
      by_cases hx : x.handler = .none
      · rw [if_pos hx]; cases printField null c x <;> rfl
      · rw [if_neg hx]

/-! ### C203 -/

/-- **C203 (partial).** If the program starts, and its log has information messages, then it says what its configuration is: each option is there, in the order of the table, with its value,
as it would be written in the command line; and so are the actions of the incidences. This if the library writes "(null)" for the texts that aren't set (see `C203_defined`). -/
theorem C203_partial (env : Env) (args : List (Nat × Option (List Byte))) (payload : Bool) (c : Conf) (h : handleFlagsConfig env args payload = .ok c)
    (hl : c.field ["log", "enabled"] = .bool true) (hi : c.field ["log", "level"] = .word 6 ∨ c.field ["log", "level"] = .word 7) :
    ∃ lines : Opt → List Text, printConfig glibc c = some ([lit "Configuration {"] ++ shown.flatMap lines ++ [lit "}"]) ∧
      ∀ o ∈ shown, if o.type = .incidences then TellsIncidences c (lines o) else Tells o (c.field o.name) (lines o) := by
  have hok := accepted_ok env args payload c h
  have key : ∀ o ∈ options, o.handler = .none → ∃ l, printField glibc c o = some l ∧ if o.type = .incidences then TellsIncidences c l else Tells o (c.field o.name) l := by
    intro o ho hh
    by_cases ht : o.type = .incidences
    · exact ⟨incidencePrint c, by simp only [printField, ht], by rw [if_pos ht]; exact incidencePrint_tells c⟩
    · rcases printField_tells o ho hh ht c (hok o ho hh) glibc with ⟨h1, h2⟩ | ⟨_, l, h2, h3⟩
      · refine ⟨_, h2, ?_⟩
        rw [if_neg ht]
        unfold Tells
        rw [← names_printed o ho]
        rw [if_neg]
        · exact ⟨_, rfl, Or.inr ⟨h1, rfl⟩⟩
        · intro hs
          have hv := hok o ho hh
          rcases h1 with h1 | ⟨h1, _⟩
          · rw [h1] at hv; simp [valOk, hs] at hv
          · rw [ft_words o ho h1] at hs; cases hs
      · exact ⟨l, h2, by rw [if_neg ht]; exact h3⟩
  refine ⟨fun o => (printField glibc c o).getD [], ?_, ?_⟩
  · have hp : (c.flag ["log", "enabled"] = true ∧ 6 ≤ c.nat ["log", "level"]) := by
      refine ⟨by simp [Conf.flag, hl], ?_⟩
      rcases hi with hi | hi <;> simp [Conf.nat, hi]
    rw [printConfig, if_pos hp, printFields_some glibc c (fun o => (printField glibc c o).getD []) options]
    · rfl
    · intro o ho hh
      obtain ⟨l, h1, _⟩ := key o ho hh
      rw [h1]; rfl
  · intro o ho
    obtain ⟨h1, h2⟩ := List.mem_filter.1 ho
    obtain ⟨l, h3, h4⟩ := key o h1 (by simpa using h2)
    simp only [h3, Option.getD_some]
    exact h4

/-- **C203.** If the log has no information messages, nothing is said. -/
theorem C203_silent (null : Null) (c : Conf) (h : c.field ["log", "enabled"] = .bool false ∨ c.field ["log", "level"] = .word 3 ∨ c.field ["log", "level"] = .word 4) :
    printConfig null c = some [] := by
  rw [printConfig, if_neg]
  rintro ⟨h1, h2⟩
  rcases h with h | h | h
  · simp [Conf.flag, h] at h1
  · simp [Conf.nat, h] at h2
  · simp [Conf.nat, h] at h2

/-- **C203.** What the C standard leaves undefined: the program gives NULL to `printf` exactly if some option that's a text, or the type of file, isn't set. -/
theorem C203_defined (env : Env) (args : List (Nat × Option (List Byte))) (payload : Bool) (c : Conf) (h : handleFlagsConfig env args payload = .ok c)
    (hl : c.field ["log", "enabled"] = .bool true) (hi : c.field ["log", "level"] = .word 6 ∨ c.field ["log", "level"] = .word 7) :
    printConfig none c = none ↔ ∃ o ∈ shown, o.type ≠ .incidences ∧ Unset o (c.field o.name) := by
  have hok := accepted_ok env args payload c h
  have hp : (c.flag ["log", "enabled"] = true ∧ 6 ≤ c.nat ["log", "level"]) := by
    refine ⟨by simp [Conf.flag, hl], ?_⟩
    rcases hi with hi | hi <;> simp [Conf.nat, hi]
  rw [printConfig, if_pos hp]
  constructor
  · intro hn
    by_contra hne
    have : printFields none c options = some ((options.filter (·.handler = .none)).flatMap fun o => (printField none c o).getD []) := by
      refine printFields_some none c _ options ?_
      intro o ho hh
      by_cases ht : o.type = .incidences
      · simp only [printField, ht, Option.getD_some]
      · rcases printField_tells o ho hh ht c (hok o ho hh) none with ⟨h1, h2⟩ | ⟨_, l, h2, h3⟩
        · exact absurd ⟨o, List.mem_filter.2 ⟨ho, by simpa using hh⟩, ht, h1⟩ hne
        · rw [h2]; rfl
    rw [this] at hn
    cases hn
  · rintro ⟨o, ho, ht, hu⟩
    obtain ⟨h1, h2⟩ := List.mem_filter.1 ho
    have hh : o.handler = .none := by simpa using h2
    rcases printField_tells o h1 hh ht c (hok o h1 hh) none with ⟨_, h3⟩ | ⟨h3, _⟩
    · rw [printFields_none none c o hh h3 options h1]; rfl
    · exact absurd hu h3

/-- A configuration that's all defaults, but the TALs and the level of the log. -/
def infoFile : Json := .obj [("tal", .str (lit "t")), ("log", .obj [("level", .str (lit "info"))])]

/-- **C203 (refuted).** With the default configuration (and the level of the log that's needed), NULL is given to `printf`. -/
theorem C203_refuted : ∃ c, handleFlagsConfig (offlineEnv infoFile) [(102, some (lit "f"))] false = .ok c ∧ c.field ["log", "enabled"] = .bool true ∧
    c.field ["log", "level"] = .word 6 ∧ printConfig none c = none := by
  refine ⟨_, rfl, by decide, by decide, ?_⟩
  decide +kernel

/- Non-vacuity: the above configuration meets the hypotheses of C203_partial; some of its messages. -/
example : ∃ c l, handleFlagsConfig (offlineEnv infoFile) [(102, some (lit "f"))] false = .ok c ∧ printConfig glibc c = some l ∧ lit "tal: t" ∈ l ∧
    lit "server.interval.validation: 3600" ∈ l ∧ lit "log.level: info" ∈ l ∧ lit "slurm: (null)" ∈ l ∧ 60 < l.length := by
  refine ⟨_, _, rfl, rfl, ?_, ?_, ?_, ?_, ?_⟩ <;> decide +kernel

end Verif.Conf
