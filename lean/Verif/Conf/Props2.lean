import Verif.Conf.Props
/-
C107-C109: incidences, what getopt is given, and the exit status.
-/
namespace Verif.Conf
open Verif.Res (Byte)
open Verif.Slurm (Json)

/-! ## C107: incidences -/

/-- Words for the actions. -/
inductive ActionName : List Byte → Action → Prop where
  | ignore : ActionName (lit "ignore") .ignore
  | warn : ActionName (lit "warn") .warn
  | error : ActionName (lit "error") .error

/-- `{ "name": nm, "action": a, ... }` -/
def Entry (j : Json) (nm : List Byte) (a : Action) : Prop :=
  ∃ m t, j = .obj m ∧ m.lookup "name" = some (.str nm) ∧ m.lookup "action" = some (.str t) ∧ ActionName t a

/-- The elements of the lists of incidences of the settings, in order. -/
def entries (xs : List (Opt × Setting)) : List Json :=
  xs.flatMap (fun x => if x.1.type = .incidences then (match x.2 with | .json (.arr l) => l | _ => []) else [])

theorem actionOf_iff (s : List Byte) (a : Action) : actionOf s = some a ↔ ActionName s a := by
  have h1 : lit "ignore" ≠ lit "warn" := by decide
  have h2 : lit "ignore" ≠ lit "error" := by decide
  have h3 : lit "warn" ≠ lit "error" := by decide
  unfold actionOf
  constructor
  · intro h
    by_cases e1 : s = lit "ignore"
    · rw [if_pos e1] at h; injection h with h; rw [e1, ← h]; exact .ignore
    · rw [if_neg e1] at h
      by_cases e2 : s = lit "warn"
      · rw [if_pos e2] at h; injection h with h; rw [e2, ← h]; exact .warn
      · rw [if_neg e2] at h
        by_cases e3 : s = lit "error"
        · rw [if_pos e3] at h; injection h with h; rw [e3, ← h]; exact .error
        · rw [if_neg e3] at h; cases h
  · intro h
    cases h with
    | ignore => rw [if_pos rfl]
    | warn => rw [if_neg (Ne.symm h1), if_pos rfl]
    | error => rw [if_neg (Ne.symm h2), if_neg (Ne.symm h3), if_pos rfl]

theorem jsonGetStr_iff (j : Json) (key : String) (s : List Byte) : jsonGetStr j key = some (some s) ↔ ∃ m, j = .obj m ∧ m.lookup key = some (.str s) := by
  unfold jsonGetStr objGet
  cases j with
  | obj m =>
    dsimp only
    cases hl : m.lookup key with
    | none =>
      constructor
      · intro h; cases h
      · rintro ⟨m', h1, h2⟩; injection h1 with h1; subst h1; rw [hl] at h2; cases h2
    | some v =>
      cases v with
      | str t =>
        constructor
        · intro h; injection h with h; injection h with h; exact ⟨m, rfl, by rw [hl, h]⟩
        · rintro ⟨m', h1, h2⟩; injection h1 with h1; subst h1; rw [hl] at h2; injection h2 with h2; injection h2 with h2; rw [h2]
      | null =>
        constructor
        · intro h; cases h
        · rintro ⟨m', h1, h2⟩; injection h1 with h1; subst h1; rw [hl] at h2; cases h2
      | bool b =>
        constructor
        · intro h; cases h
        · rintro ⟨m', h1, h2⟩; injection h1 with h1; subst h1; rw [hl] at h2; cases h2
      | int b =>
        constructor
        · intro h; cases h
        · rintro ⟨m', h1, h2⟩; injection h1 with h1; subst h1; rw [hl] at h2; cases h2
      | real =>
        constructor
        · intro h; cases h
        · rintro ⟨m', h1, h2⟩; injection h1 with h1; subst h1; rw [hl] at h2; cases h2
      | arr b =>
        constructor
        · intro h; cases h
        · rintro ⟨m', h1, h2⟩; injection h1 with h1; subst h1; rw [hl] at h2; cases h2
      | obj b =>
        constructor
        · intro h; cases h
        · rintro ⟨m', h1, h2⟩; injection h1 with h1; subst h1; rw [hl] at h2; cases h2
  | null => exact ⟨(fun h => by cases h), (fun ⟨m, h, _⟩ => by cases h)⟩
  | bool b => exact ⟨(fun h => by cases h), (fun ⟨m, h, _⟩ => by cases h)⟩
  | int b => exact ⟨(fun h => by cases h), (fun ⟨m, h, _⟩ => by cases h)⟩
  | real => exact ⟨(fun h => by cases h), (fun ⟨m, h, _⟩ => by cases h)⟩
  | str b => exact ⟨(fun h => by cases h), (fun ⟨m, h, _⟩ => by cases h)⟩
  | arr b => exact ⟨(fun h => by cases h), (fun ⟨m, h, _⟩ => by cases h)⟩

theorem table_nodup : ∀ i : Fin incidenceTable.length, ∀ k : Fin incidenceTable.length, incidenceTable[i].1 = incidenceTable[k].1 → i = k := by decide

theorem name2id (nm : List Byte) (i : Nat) : incidenceTable.findIdx? (fun x => x.1 = nm) = some i ↔ ∃ d, incidenceTable[i]? = some (nm, d) := by
  constructor
  · intro h
    obtain ⟨h1, h2, _⟩ := List.findIdx?_eq_some_iff_getElem.1 h
    have h2 : incidenceTable[i].1 = nm := of_decide_eq_true h2
    exact ⟨incidenceTable[i].2, by rw [List.getElem?_eq_getElem h1, ← h2]⟩
  · rintro ⟨d, h⟩
    obtain ⟨h1, h2⟩ := List.getElem?_eq_some_iff.1 h
    have hnd := table_nodup
    refine List.findIdx?_eq_some_iff_getElem.2 ⟨h1, by simp [h2], ?_⟩
    intro k hk
    have := hnd ⟨i, h1⟩ ⟨k, by omega⟩
    simp only [decide_eq_true_eq]
    intro he
    have := this (by simp only [Fin.getElem_fin]; rw [h2, he])
    injection this
    omega

theorem initAction_iff (j : Json) (c c' : Conf) :
    initAction j c = .ok c' ↔ ∃ nm a, ∃ i : Nat, ∃ d, Entry j nm a ∧ incidenceTable[i]? = some (nm, d) ∧ c' = c.setIncid i a := by
  unfold initAction
  constructor
  · intro h
    cases h1 : jsonGetStr j "name" with
    | none => rw [h1] at h; cases h
    | some r =>
      cases r with
      | none => rw [h1] at h; cases h
      | some nm =>
        rw [h1] at h
        dsimp only at h
        cases h2 : incidenceTable.findIdx? (fun i => i.1 = nm) with
        | none => rw [h2] at h; cases h
        | some i =>
          rw [h2] at h
          dsimp only at h
          cases h3 : jsonGetStr j "action" with
          | none => rw [h3] at h; cases h
          | some r =>
            cases r with
            | none => rw [h3] at h; cases h
            | some s =>
              rw [h3] at h
              dsimp only at h
              cases h4 : actionOf s with
              | none => rw [h4] at h; cases h
              | some a =>
                rw [h4] at h
                injection h with h
                obtain ⟨m, e1, e2⟩ := (jsonGetStr_iff j "name" nm).1 h1
                obtain ⟨m', e3, e4⟩ := (jsonGetStr_iff j "action" s).1 h3
                rw [e1] at e3
                injection e3 with e3
                subst e3
                obtain ⟨d, hd⟩ := (name2id nm i).1 h2
                exact ⟨nm, a, i, d, ⟨m, s, e1, e2, e4, (actionOf_iff s a).1 h4⟩, hd, h.symm⟩
  · rintro ⟨nm, a, i, d, ⟨m, s, e1, e2, e3, e4⟩, hd, rfl⟩
    rw [(jsonGetStr_iff j "name" nm).2 ⟨m, e1, e2⟩]
    dsimp only
    rw [(name2id nm i).2 ⟨d, hd⟩]
    dsimp only
    rw [(jsonGetStr_iff j "action" s).2 ⟨m, e1, e3⟩]
    dsimp only
    rw [(actionOf_iff s a).2 e4]

theorem entry_uniq (j : Json) (nm nm' : List Byte) (a a' : Action) (h : Entry j nm a) (h' : Entry j nm' a') : nm = nm' ∧ a = a' := by
  obtain ⟨m, t, e1, e2, e3, e4⟩ := h
  obtain ⟨m', t', e1', e2', e3', e4'⟩ := h'
  rw [e1] at e1'
  injection e1' with e
  subst e
  rw [e2] at e2'; injection e2' with e2'; injection e2' with e2'
  rw [e3] at e3'; injection e3' with e3'; injection e3' with e3'
  subst e3'
  have h1 := (actionOf_iff t a).2 e4
  have h2 := (actionOf_iff t a').2 e4'
  rw [h1] at h2; injection h2 with h2
  exact ⟨e2', h2⟩

theorem table_inj (i k : Nat) (nm : List Byte) (d d' : Action) (h : incidenceTable[i]? = some (nm, d)) (h' : incidenceTable[k]? = some (nm, d')) : i = k := by
  have h1 := (name2id nm i).2 ⟨d, h⟩
  have h2 := (name2id nm k).2 ⟨d', h'⟩
  rw [h1] at h2; injection h2

theorem initActions_eq (l : List Json) (c c' : Conf) (h : initActions l c = .ok c') :
    (∀ j ∈ l, ∃ nm a, ∃ i : Nat, ∃ d, Entry j nm a ∧ incidenceTable[i]? = some (nm, d)) ∧
    ∀ (i : Nat) nm d, incidenceTable[i]? = some (nm, d) →
      (∀ pre j post a, l = pre ++ j :: post → Entry j nm a → (∀ j' ∈ post, ∀ a', ¬ Entry j' nm a') → c'.incid i = a) ∧
      ((∀ j ∈ l, ∀ a, ¬ Entry j nm a) → c'.incid i = c.incid i) := by
  induction l generalizing c with
  | nil =>
    injection h with h
    subst h
    refine ⟨(fun j hj => by cases hj), fun i nm d _ => ⟨?_, fun _ => rfl⟩⟩
    intro pre j post a h
    have := congrArg List.length h
    simp at this
  | cons j l ih =>
    rw [initActions] at h
    cases hp : initAction j c with
    | ok c1 =>
      rw [hp] at h
      dsimp only at h
      obtain ⟨ih1, ih2⟩ := ih c1 h
      obtain ⟨nm, a, i, d, k1, k2, k3⟩ := (initAction_iff j c c1).1 hp
      refine ⟨?_, ?_⟩
      · intro j' hj'
        rcases List.mem_cons.1 hj' with rfl | hj'
        · exact ⟨nm, a, i, d, k1, k2⟩
        · exact ih1 j' hj'
      · intro i' nm' d' hi'
        obtain ⟨g1, g2⟩ := ih2 i' nm' d' hi'
        refine ⟨?_, ?_⟩
        · intro pre j' post a' hl he hpost
          cases pre with
          | nil =>
            rw [List.nil_append] at hl
            injection hl with hl1 hl2
            subst hl1; subst hl2
            obtain ⟨e1, e2⟩ := entry_uniq j nm nm' a a' k1 he
            subst e1; subst e2
            have := table_inj i i' nm d d' k2 hi'
            subst this
            rw [g2 hpost, k3]
            show (if i = i then a else c.incid i) = a
            rw [if_pos rfl]
          | cons p pre =>
            rw [List.cons_append] at hl
            injection hl with hl1 hl2
            exact g1 pre j' post a' hl2 he hpost
        · intro hno
          rw [g2 (fun j' hj' => hno j' (by simp [hj'])), k3]
          show (if i' = i then a else c.incid i') = c.incid i'
          rw [if_neg]
          intro he
          subst he
          rw [k2] at hi'
          injection hi' with hi'
          injection hi' with hi' _
          exact hno j (by simp) a (hi' ▸ k1)
    | fail e => rw [hp] at h; cases h
    | exit e => rw [hp] at h; cases h
    | ub => rw [hp] at h; cases h

theorem initActions_append (l r : List Json) (c c' : Conf) (h : initActions l c = .ok c') : initActions (l ++ r) c = initActions r c' := by
  induction l generalizing c with
  | nil => injection h with h; subst h; rfl
  | cons x xs ih =>
    rw [initActions] at h
    rw [List.cons_append, initActions]
    cases hp : initAction x c with
    | ok c1 => rw [hp] at h; exact ih c1 h
    | fail e => rw [hp] at h; cases h
    | exit e => rw [hp] at h; cases h
    | ub => rw [hp] at h; cases h

theorem initAction_incid (j : Json) (c c1 c' : Conf) (hc : c.incid = c1.incid) (h : initAction j c = .ok c') : ∃ c2, initAction j c1 = .ok c2 ∧ c'.incid = c2.incid := by
  obtain ⟨nm, a, i, d, k1, k2, rfl⟩ := (initAction_iff j c c').1 h
  refine ⟨c1.setIncid i a, (initAction_iff j c1 _).2 ⟨nm, a, i, d, k1, k2, rfl⟩, ?_⟩
  unfold Conf.setIncid
  simp only [hc]

theorem initActions_incid (l : List Json) (c c1 c' : Conf) (hc : c.incid = c1.incid) (h : initActions l c = .ok c') : ∃ c2, initActions l c1 = .ok c2 ∧ c'.incid = c2.incid := by
  induction l generalizing c c1 with
  | nil => injection h with h; subst h; exact ⟨c1, rfl, hc⟩
  | cons j l ih =>
    rw [initActions] at h
    cases hp : initAction j c with
    | ok c3 =>
      rw [hp] at h
      obtain ⟨c4, h4, h5⟩ := initAction_incid j c c1 c3 hc hp
      obtain ⟨c5, h6, h7⟩ := ih c3 c4 h5 h
      exact ⟨c5, by rw [initActions, h4]; exact h6, h7⟩
    | fail e => rw [hp] at h; cases h
    | exit e => rw [hp] at h; cases h
    | ub => rw [hp] at h; cases h

theorem applyAll_incid (xs : List (Opt × Setting)) (hm : ∀ x ∈ xs, x.1 ∈ options) (c c1 c' : Conf) (hc : c.incid = c1.incid) (h : applyAll xs c = .ok c') :
    ∃ c2, initActions (entries xs) c1 = .ok c2 ∧ c'.incid = c2.incid := by
  induction xs generalizing c c1 with
  | nil => injection h with h; subst h; exact ⟨c1, rfl, hc⟩
  | cons x xs ih =>
    rw [applyAll] at h
    cases hp : parse x.1 x.2 c with
    | ok c3 =>
      rw [hp] at h
      by_cases hi : x.1.type = .incidences
      · obtain ⟨o, s⟩ := x
        dsimp only at hi hp h
        cases s with
        | argv a =>
          have e : parse o (.argv a) c = .ub := by unfold parse parseArgv; simp only [hi]
          rw [e] at hp; cases hp
        | json j =>
          have e : parse o (.json j) c = incidenceUpdate j c := by unfold parse parseJson; simp only [hi]
          rw [e] at hp
          cases j with
          | arr l =>
            obtain ⟨c4, h4, h5⟩ := initActions_incid l c c1 c3 hc hp
            obtain ⟨c5, h6, h7⟩ := ih (fun y hy => hm y (by simp [hy])) c3 c4 h5 h
            refine ⟨c5, ?_, h7⟩
            have ee : entries ((o, .json (.arr l)) :: xs) = l ++ entries xs := by simp [entries, hi]
            rw [ee, initActions_append l _ c1 c4 h4]
            exact h6
          | null => cases hp
          | bool b => cases hp
          | int b => cases hp
          | real => cases hp
          | str b => cases hp
          | obj b => cases hp
      · obtain ⟨v, _, rfl⟩ := (parse_iff x.1 (hm x (by simp)) hi x.2 c c3).1 hp
        obtain ⟨c5, h6, h7⟩ := ih (fun y hy => hm y (by simp [hy])) _ c1 ((store_incid x.1 v c).trans hc) h
        refine ⟨c5, ?_, h7⟩
        have ee : entries (x :: xs) = entries xs := by simp [entries, hi]
        rw [ee]; exact h6
    | fail e => rw [hp] at h; cases h
    | exit e => rw [hp] at h; cases h
    | ub => rw [hp] at h; cases h

/-- C107: if the program starts, every incidence of the configuration files has a known name and a known action; each of the six incidences has the action of the last element that
names it, and its default if none does. -/
theorem C107 (env : Env) (args : List (Nat × Option (List Byte))) (payload : Bool) (c : Conf) (h : handleFlagsConfig env args payload = .ok c) :
    (∀ j ∈ entries (settings env args), ∃ nm a, ∃ i : Nat, ∃ d, Entry j nm a ∧ incidenceTable[i]? = some (nm, d)) ∧
    ∀ (i : Nat) nm d, incidenceTable[i]? = some (nm, d) →
      (∀ pre j post a, entries (settings env args) = pre ++ j :: post → Entry j nm a → (∀ j' ∈ post, ∀ a', ¬ Entry j' nm a') → c.incid i = a) ∧
      ((∀ j ∈ entries (settings env args), ∀ a, ¬ Entry j nm a) → c.incid i = d) := by
  obtain ⟨c1, h1, h2⟩ := flags_ok env args payload c h
  obtain ⟨c2, h3, h4⟩ := applyAll_incid _ (settings_mem env args) initial initial c1 rfl h1
  have h5 : c.incid = c1.incid := by
    obtain ⟨_, _, _, ⟨_, rfl⟩ | ⟨_, _, rfl⟩⟩ := finish_ok env payload c1 c h2
    · rfl
    · rfl
  obtain ⟨k1, k2⟩ := initActions_eq _ initial c2 h3
  refine ⟨k1, ?_⟩
  intro i nm d hi
  obtain ⟨g1, g2⟩ := k2 i nm d hi
  rw [h5, h4]
  refine ⟨g1, fun hno => ?_⟩
  rw [g2 hno]
  show ((incidenceTable[i]?).map (·.2)).getD .ignore = d
  rw [hi]; rfl

/-- C107: the incidences are the documented ones, with the documented defaults. -/
theorem C107_table : incidenceTable = documentedIncidences.map (fun d => (lit d.1, d.2)) := by decide

/- Non-vacuity: a file that ignores stale manifests. -/
def incidFile : Json := .obj [("tal", .str (lit "t")), ("incidences", .arr [.obj [("name", .str (lit "incid-mft-stale")), ("action", .str (lit "ignore"))]])]

example : ∃ c, handleFlagsConfig (offlineEnv incidFile) [(102, some (lit "f"))] false = .ok c ∧ c.incid 4 = .ignore ∧ c.incid 5 = .error := by
  refine ⟨_, rfl, ?_, ?_⟩ <;> decide
example : (entries (settings (offlineEnv incidFile) [(102, some (lit "f"))])).length = 1 := by decide

/-! ## C108: getopt's tables -/

theorem put_next {α : Type} (done : List (Option α)) (n : Nat) (v : α) : put (done ++ List.replicate (n + 1) none) done.length v = some ((done ++ [some v]) ++ List.replicate n none) := by
  unfold put
  rw [if_pos (by simp)]
  rw [List.set_append_right _ _ (by simp)]
  simp [List.replicate_succ]

/-- The long options: the ones for the command line. -/
def longOpts (table : List Opt) : List (Key × OptType × Nat) := (table.filter (·.getopt)).map (fun o => (o.name, o.type, o.id))

/-- The short options: the alphanumeric ones, with a colon if they take an argument. -/
def shortOpts (table : List Opt) : List Nat := ((table.filter (·.getopt)).filter (isAlphanumeric ·.id)).flatMap (fun o => if o.type.noArg then [o.id] else [o.id, 58])

theorem countOpts_eq (table : List Opt) : countOpts table = ((longOpts table).length, (shortOpts table).length) := by
  induction table with
  | nil => rfl
  | cons o os ih =>
    rw [countOpts, ih]
    dsimp only
    by_cases hg : o.getopt = true
    · rw [if_neg (by simp [hg])]
      have e1 : longOpts (o :: os) = (o.name, o.type, o.id) :: longOpts os := by simp [longOpts, hg]
      by_cases ha : isAlphanumeric o.id = true
      · rw [if_pos ha]
        have e2 : shortOpts (o :: os) = (if o.type.noArg then [o.id] else [o.id, 58]) ++ shortOpts os := by simp [shortOpts, hg, ha]
        rw [e1, e2]
        by_cases hn : o.type.noArg = true
        · rw [if_pos hn, if_pos hn]; simp [Nat.add_comm]
        · rw [if_neg hn, if_neg hn]; simp [Nat.add_comm]; omega
      · rw [if_neg ha]
        have e2 : shortOpts (o :: os) = shortOpts os := by simp [shortOpts, hg, ha]
        rw [e1, e2]; simp
    · rw [if_pos (by simpa using hg)]
      have e1 : longOpts (o :: os) = longOpts os := by simp [longOpts, hg]
      have e2 : shortOpts (o :: os) = shortOpts os := by simp [shortOpts, hg]
      rw [e1, e2]

theorem fillOpts_eq (table : List Opt) (ld : List (Option (Key × OptType × Nat))) (sd : List (Option Nat)) :
    fillOpts table ld.length (ld ++ List.replicate ((longOpts table).length + 1) none) sd.length (sd ++ List.replicate ((shortOpts table).length + 1) none) =
      some (ld ++ (longOpts table).map some ++ [none], (sd ++ (shortOpts table).map some).length, sd ++ (shortOpts table).map some ++ [none]) := by
  induction table generalizing ld sd with
  | nil => simp [fillOpts, longOpts, shortOpts]
  | cons o os ih =>
    rw [fillOpts]
    by_cases hg : o.getopt = true
    · rw [if_neg (by simp [hg])]
      have e1 : longOpts (o :: os) = (o.name, o.type, o.id) :: longOpts os := by simp [longOpts, hg]
      rw [e1, List.length_cons, put_next]
      dsimp only
      have ll : (ld ++ [some (o.name, o.type, o.id)]).length = ld.length + 1 := by simp
      by_cases ha : isAlphanumeric o.id = true
      · rw [if_pos ha]
        by_cases hn : o.type.noArg = true
        · have e2 : shortOpts (o :: os) = o.id :: shortOpts os := by simp [shortOpts, hg, ha, hn]
          rw [e2, List.length_cons, put_next]
          dsimp only
          rw [if_pos hn]
          have := ih (ld ++ [some (o.name, o.type, o.id)]) (sd ++ [some o.id])
          rw [ll, List.length_append (as := sd), List.length_singleton] at this
          rw [this]
          simp
        · have e2 : shortOpts (o :: os) = o.id :: 58 :: shortOpts os := by simp [shortOpts, hg, ha, hn]
          rw [e2, List.length_cons, List.length_cons, put_next]
          dsimp only
          rw [if_neg hn]
          have e3 := put_next (sd ++ [some o.id]) ((shortOpts os).length + 1) 58
          rw [List.length_append, List.length_singleton] at e3
          rw [e3]
          dsimp only
          have := ih (ld ++ [some (o.name, o.type, o.id)]) (sd ++ [some o.id] ++ [some 58])
          have l2 : (sd ++ [some o.id] ++ [some 58]).length = sd.length + 2 := by simp
          rw [ll, l2] at this
          rw [this]
          simp
      · rw [if_neg ha]
        have e2 : shortOpts (o :: os) = shortOpts os := by simp [shortOpts, hg, ha]
        rw [e2]
        have := ih (ld ++ [some (o.name, o.type, o.id)]) sd
        rw [ll] at this
        rw [this]
        simp
    · rw [if_pos (by simpa using hg)]
      have e1 : longOpts (o :: os) = longOpts os := by simp [longOpts, hg]
      have e2 : shortOpts (o :: os) = shortOpts os := by simp [shortOpts, hg]
      rw [e1, e2, ih]

/-- C108: for every table of options, the tables built for getopt have exactly the options for the command line, are terminated, and are completely within their buffers. -/
theorem C108 (table : List Opt) :
    constructGetopt table = some ((longOpts table).map some ++ [none], (shortOpts table).map some ++ [some 0]) := by
  unfold constructGetopt
  rw [countOpts_eq]
  dsimp only
  have := fillOpts_eq table [] []
  simp only [List.length_nil, List.nil_append] at this
  rw [this]
  dsimp only
  have e : put ((shortOpts table).map some ++ [none]) ((shortOpts table).map some).length 0 = some ((shortOpts table).map some ++ [some 0]) := by
    have := put_next ((shortOpts table).map some) 0 0
    simpa using this
  rw [e]

/-- The letters and the digits. -/
def lettersAndDigits : List Nat := "abcdefghijklmnopqrstuvwxyzABCDEFGHIJKLMNOPQRSTUVWXYZ0123456789".toList.map Char.toNat

set_option maxRecDepth 20000 in
/-- C108: the options that also have a short form are those whose number is a letter or a digit. -/
theorem C108_short (c : Nat) : isAlphanumeric c = true ↔ c ∈ lettersAndDigits := by
  by_cases h : c < 128
  · have : ∀ c < 128, isAlphanumeric c = lettersAndDigits.contains c := by decide
    rw [this c h]; simp
  · have hb : ∀ x ∈ lettersAndDigits, x < 128 := by decide
    constructor
    · intro ha; simp [isAlphanumeric] at ha; omega
    · intro hm; exact absurd (hb c hm) h

/- The short options of this program: "hVf:t:r:c:". -/
example : shortOpts options = (lit "hVf:t:r:c:").map (·.toNat) := by decide

/-- C108: in this program's table no two options have the same number, or the same name; the ones for the command line and for files have parsers (or a handler). -/
theorem C108_table : (options.map (·.id)).Nodup ∧ (options.map (·.name)).Nodup ∧
    (∀ o ∈ options, o.id ≠ 0) ∧
    (∀ o ∈ options, o.getopt = true → o.handler ≠ .none ∨ (o.type ≠ .incidences ∧ o.type ≠ .callback)) ∧
    (∀ o ∈ options, o.json = true → o.handler = .none ∧ o.type ≠ .callback) := by decide

/-- C108: the options of the command line that don't require an argument: those that do nothing else than print something, and the ones that are true or false. -/
theorem C108_arguments : (options.filter fun o => o.getopt && !o.type.requiresArg).map (·.name) =
    [["help"], ["usage"], ["version"], ["shuffle-uris"], ["work-offline"], ["daemon"], ["rsync", "enabled"], ["http", "enabled"], ["log", "enabled"], ["log", "color-output"],
     ["validation-log", "enabled"], ["validation-log", "color-output"], ["init-tals"], ["init-as0-tals"]] := by decide

/-! ## C109: exit status -/

theorem and127 (x : BitVec 32) : (x &&& 0x7F).toNat = x.toNat % 128 := by
  rw [BitVec.toNat_and]
  exact Nat.and_two_pow_sub_one_eq_mod x.toNat 7

/-- C109: the exit status is zero exactly on success, and is always at most 125; the usual errors are their absolute value. -/
theorem C109 (error : BitVec 32) :
    (convertToResult error = 0 ↔ error = 0) ∧ (convertToResult error).toNat ≤ 125 ∧
    (1 ≤ error.toInt.natAbs → error.toInt.natAbs ≤ 125 → (convertToResult error).toNat = error.toInt.natAbs) := by
  unfold convertToResult
  by_cases h0 : error = 0
  · subst h0; decide
  · rw [if_neg h0]
    by_cases h1 : error = BitVec.intMin 32
    · subst h1; decide
    · rw [if_neg h1]
      dsimp only
      generalize hx : (if error.slt 0 then -error else error) = x
      have hxn : x.toNat = error.toInt.natAbs := by
        rw [← hx]
        have hs : error.slt 0 = decide (error.toInt < 0) := by simp [BitVec.slt]
        rw [hs]
        have hlt := error.isLt
        by_cases hneg : error.toInt < 0
        · simp only [hneg, decide_true, if_true]
          rw [BitVec.toNat_neg]
          rw [BitVec.toInt_eq_toNat_cond] at hneg ⊢
          by_cases hc : 2 * error.toNat < 2 ^ 32
          · rw [if_pos hc] at hneg; omega
          · rw [if_neg hc] at hneg ⊢; omega
        · simp only [hneg, decide_false]
          rw [BitVec.toInt_eq_toNat_cond] at hneg ⊢
          by_cases hc : 2 * error.toNat < 2 ^ 32
          · rw [if_pos hc]; simp
          · rw [if_neg hc] at hneg; omega
      have ha := and127 x
      generalize x &&& 0x7F = y at ha
      by_cases c1 : y = 126
      · rw [if_pos c1]
        subst c1
        refine ⟨⟨(fun h => absurd h (by decide)), (fun h => absurd h h0)⟩, by decide, ?_⟩
        intro _ h2
        have : (126 : BitVec 32).toNat = 126 := rfl
        rw [this] at ha
        omega
      · rw [if_neg c1]
        by_cases c2 : y = 127
        · rw [if_pos c2]
          subst c2
          refine ⟨⟨(fun h => absurd h (by decide)), (fun h => absurd h h0)⟩, by decide, ?_⟩
          intro _ h2
          have : (127 : BitVec 32).toNat = 127 := rfl
          rw [this] at ha
          omega
        · rw [if_neg c2]
          by_cases c3 : y = 0
          · rw [if_pos c3]
            subst c3
            refine ⟨⟨(fun h => absurd h (by decide)), (fun h => absurd h h0)⟩, by decide, ?_⟩
            intro _ h2
            have : (0 : BitVec 32).toNat = 0 := rfl
            rw [this] at ha
            omega
          · rw [if_neg c3]
            have n1 : y.toNat ≠ 126 := fun h => c1 (BitVec.eq_of_toNat_eq (by rw [h]; rfl))
            have n2 : y.toNat ≠ 127 := fun h => c2 (BitVec.eq_of_toNat_eq (by rw [h]; rfl))
            refine ⟨⟨(fun h => absurd h c3), (fun h => absurd h h0)⟩, by omega, ?_⟩
            intro _ h2
            omega

example : convertToResult (-22) = 22 ∧ convertToResult 256 = 124 ∧ convertToResult (BitVec.intMin 32) = 125 := by decide

end Verif.Conf
