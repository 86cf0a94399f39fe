import Verif.Conf.NumProps
import Verif.Conf.TokLemmas
/-
What each parser of options does.
-/
namespace Verif.Conf
open Verif.Res (Byte)
open Verif.Slurm (Json)

/-- The parser, by where the setting comes from. -/
def parse (o : Opt) (s : Setting) (c : Conf) : Out Conf :=
  match s with
  | .argv a => parseArgv o a c
  | .json j => parseJson o j c

/-- The state once a value is stored. -/
def store (o : Opt) (v : Val) (c : Conf) : Conf :=
  if o.type = .offline then (c.set o.name v).setEnabled (decide (v = .bool false)) else c.set o.name v

theorem argvBool_iff (a : Option (List Byte)) (b : Bool) : argvBool a = some b ↔ MeansBool (.argv a) b := by
  cases a with
  | none => simp [argvBool, MeansBool, eq_comm]
  | some t =>
    cases t with
    | nil =>
      have : ([] : List Byte) ≠ lit "false" := by decide
      simp only [argvBool, MeansBool, Option.some.injEq]
      constructor
      · intro h; left; exact ⟨h.symm, Or.inl trivial⟩
      · rintro (⟨h, _⟩ | ⟨_, h⟩)
        · exact h.symm
        · exact absurd h this
    | cons x r =>
      have e : argvBool (some (x :: r)) = if (x :: r) = lit "true" then some true else if (x :: r) = lit "false" then some false else none := rfl
      rw [e]
      unfold MeansBool
      dsimp only
      have htf : lit "true" ≠ lit "false" := by decide
      by_cases h1 : (x :: r) = lit "true"
      · rw [if_pos h1]
        constructor
        · intro h; injection h with h; exact Or.inl ⟨h.symm, Or.inr h1⟩
        · rintro (⟨h, _⟩ | ⟨_, h⟩)
          · rw [h]
          · exact absurd (h1.symm.trans h) htf
      · rw [if_neg h1]
        by_cases h2 : (x :: r) = lit "false"
        · rw [if_pos h2]
          constructor
          · intro h; injection h with h; exact Or.inr ⟨h.symm, h2⟩
          · rintro (⟨_, h | h⟩ | ⟨h, _⟩)
            · cases h
            · exact absurd h h1
            · rw [h]
        · rw [if_neg h2]
          constructor
          · intro h; cases h
          · rintro (⟨_, h | h⟩ | ⟨_, h⟩)
            · cases h
            · exact absurd h h1
            · exact absurd h h2

theorem jsonStrs_iff (l : List Json) (r : List (List Byte)) : jsonStrs l = some r ↔ l = r.map .str := by
  induction l generalizing r with
  | nil => cases r <;> simp [jsonStrs]
  | cons j l ih =>
    cases j with
    | str s =>
      rw [jsonStrs, Option.map_eq_some_iff]
      constructor
      · rintro ⟨r', h1, rfl⟩; rw [(ih r').1 h1]; rfl
      · intro h
        cases r with
        | nil => cases h
        | cons t r =>
          rw [List.map_cons] at h
          injection h with h1 h2
          injection h1 with h1
          exact ⟨r, (ih r).2 h2, by rw [h1]⟩
    | null => cases r <;> simp [jsonStrs]
    | bool b => cases r <;> simp [jsonStrs]
    | int i => cases r <;> simp [jsonStrs]
    | real => cases r <;> simp [jsonStrs]
    | arr l => cases r <;> simp [jsonStrs]
    | obj m => cases r <;> simp [jsonStrs]

theorem find_word (ws : List (List Byte × Nat)) (hn : (ws.map (·.1)).Nodup) (t : List Byte) (w : List Byte × Nat) :
    ws.find? (fun w => w.1 = t) = some w ↔ w ∈ ws ∧ w.1 = t := by
  induction ws with
  | nil => simp
  | cons x ws ih =>
    rw [List.map_cons, List.nodup_cons] at hn
    rw [List.find?_cons]
    by_cases hx : x.1 = t
    · simp only [hx, decide_true]
      constructor
      · intro h; injection h with h; subst h; exact ⟨by simp, hx⟩
      · rintro ⟨h1, h2⟩
        rcases List.mem_cons.1 h1 with rfl | h1
        · rfl
        · exact absurd (List.mem_map.2 ⟨w, h1, by rw [h2, hx]⟩) hn.1
    · simp only [hx, decide_false]
      rw [ih hn.2]
      constructor
      · rintro ⟨h1, h2⟩; exact ⟨by simp [h1], h2⟩
      · rintro ⟨h1, h2⟩
        rcases List.mem_cons.1 h1 with rfl | h1
        · exact absurd h2 hx
        · exact ⟨h1, h2⟩

theorem argvWord_iff (o : Opt) (ws : List (List Byte × Nat)) (hn : (ws.map (·.1)).Nodup) (a : Option (List Byte)) (c c' : Conf) :
    parseArgvWord o ws a c = .ok c' ↔ ∃ t n, a = some t ∧ (t, n) ∈ ws ∧ c' = c.set o.name (.word n) := by
  cases a with
  | none =>
    constructor
    · intro h; cases h
    · rintro ⟨t, n, h, _⟩; cases h
  | some s =>
    unfold parseArgvWord
    dsimp only
    constructor
    · intro h
      cases h1 : ws.find? (fun w => w.1 = s) with
      | none => rw [h1] at h; cases h
      | some w =>
        rw [h1] at h
        injection h with h
        obtain ⟨k1, k2⟩ := (find_word ws hn s w).1 h1
        exact ⟨s, w.2, rfl, by rw [← k2]; exact k1, h.symm⟩
    · rintro ⟨t, n, h, h2, rfl⟩
      injection h with h
      subst h
      rw [(find_word ws hn s (s, n)).2 ⟨h2, rfl⟩]

theorem bool_false (b : Bool) : decide (Val.bool b = .bool false) = !b := by cases b <;> decide

theorem wordsNodup : ∀ o ∈ options, ∀ ws, o.type = .words ws → (ws.map (·.1)).Nodup := by
  have h : ∀ o ∈ options, (match o.type with | .words ws => decide ((ws.map (·.1)).Nodup) | _ => true) = true := by decide
  intro o ho ws hw
  have := h o ho
  rw [hw] at this
  exact of_decide_eq_true this

/-- An option is accepted exactly if its setting means something, which is what's stored. -/
theorem parse_iff (o : Opt) (ho : o ∈ options) (hi : o.type ≠ .incidences) (s : Setting) (c c' : Conf) :
    parse o s c = .ok c' ↔ ∃ v, Means o s v ∧ c' = store o v c := by
  cases ht : o.type with
  | uint =>
    have hst : ∀ v, store o v c = c.set o.name v := fun v => by unfold store; rw [if_neg (by rw [ht]; intro h; cases h)]
    obtain ⟨h1, h2, h3, h4⟩ := uint_getopt o ho ht
    cases s with
    | argv a =>
      have e : parse o (.argv a) c = parseArgvUint o a c := by unfold parse parseArgv; simp only [ht]
      rw [e]
      simp only [Means, ht]
      cases a with
      | none =>
        constructor
        · intro h; cases h
        · rintro ⟨v, ⟨n, _, _, _, t, h, _⟩, _⟩; cases h
      | some t =>
        rw [argvUint_iff o h4]
        constructor
        · rintro ⟨n, k1, k2, k3, k4⟩; exact ⟨.uint n, ⟨n, rfl, k2, k3, t, rfl, k1⟩, by rw [hst]; exact k4⟩
        · rintro ⟨v, ⟨n, rfl, k2, k3, t', h, k1⟩, k4⟩
          injection h with h
          subst h
          exact ⟨n, k1, k2, k3, by rw [← hst]; exact k4⟩
    | json j =>
      have e : parse o (.json j) c = parseJson o j c := rfl
      rw [e, C64_json o ho ht]
      simp only [Means, ht]
      constructor
      · rintro ⟨n, k1, k2, k3, k4⟩; exact ⟨.uint n, ⟨n, rfl, k2, k3, k1⟩, by rw [hst]; exact k4⟩
      · rintro ⟨v, ⟨n, rfl, k2, k3, k1⟩, k4⟩; exact ⟨n, k1, k2, k3, by rw [← hst]; exact k4⟩
  | bool =>
    have hst : ∀ v, store o v c = c.set o.name v := fun v => by unfold store; rw [if_neg (by rw [ht]; intro h; cases h)]
    simp only [Means, ht]
    cases s with
    | argv a =>
      have e : parse o (.argv a) c = parseArgvBool o a c := by unfold parse parseArgv; simp only [ht]
      rw [e, parseArgvBool]
      constructor
      · intro h
        cases hb : argvBool a with
        | none => rw [hb] at h; cases h
        | some b => rw [hb] at h; injection h with h; exact ⟨_, ⟨b, rfl, (argvBool_iff a b).1 hb⟩, by rw [hst]; exact h.symm⟩
      · rintro ⟨v, ⟨b, rfl, k1⟩, rfl⟩
        rw [(argvBool_iff a b).2 k1, hst]
    | json j =>
      have e : parse o (.json j) c = parseJsonBool o j c := by unfold parse parseJson; simp only [ht]
      rw [e]
      constructor
      · intro h
        cases j with
        | bool b => injection h with h; exact ⟨_, ⟨b, rfl, rfl⟩, by rw [hst]; exact h.symm⟩
        | null => cases h
        | int i => cases h
        | real => cases h
        | str s => cases h
        | arr l => cases h
        | obj m => cases h
      · rintro ⟨v, ⟨b, rfl, k1⟩, rfl⟩
        have k1 : j = .bool b := k1
        subst k1
        rw [hst]; rfl
  | offline =>
    have hst : ∀ b, store o (.bool b) c = (c.set o.name (.bool b)).setEnabled (!b) := fun b => by unfold store; rw [if_pos ht, bool_false]
    simp only [Means, ht]
    cases s with
    | argv a =>
      have e : parse o (.argv a) c = parseArgvOffline o a c := by unfold parse parseArgv; simp only [ht]
      rw [e, parseArgvOffline]
      constructor
      · intro h
        cases hb : argvBool a with
        | none => rw [hb] at h; cases h
        | some b => rw [hb] at h; injection h with h; exact ⟨_, ⟨b, rfl, (argvBool_iff a b).1 hb⟩, by rw [hst]; exact h.symm⟩
      · rintro ⟨v, ⟨b, rfl, k1⟩, rfl⟩
        rw [(argvBool_iff a b).2 k1, hst]
    | json j =>
      have e : parse o (.json j) c = parseJsonOffline o j c := by unfold parse parseJson; simp only [ht]
      rw [e]
      constructor
      · intro h
        cases j with
        | bool b => injection h with h; exact ⟨_, ⟨b, rfl, rfl⟩, by rw [hst]; exact h.symm⟩
        | null => cases h
        | int i => cases h
        | real => cases h
        | str s => cases h
        | arr l => cases h
        | obj m => cases h
      · rintro ⟨v, ⟨b, rfl, k1⟩, rfl⟩
        have k1 : j = .bool b := k1
        subst k1
        rw [hst]; rfl
  | string =>
    have hst : ∀ v, store o v c = c.set o.name v := fun v => by unfold store; rw [if_neg (by rw [ht]; intro h; cases h)]
    have hargv : ∀ a, parseArgvString o a c = .ok c' ↔ ∃ t, a = some t ∧ t ≠ [] ∧ c' = c.set o.name (.str (some t)) := by
      intro a
      cases a with
      | none =>
        constructor
        · intro h; cases h
        · rintro ⟨t, h, _⟩; cases h
      | some t =>
        cases t with
        | nil =>
          constructor
          · intro h; cases h
          · rintro ⟨t, h, h2, _⟩; injection h with h; exact absurd h.symm h2
        | cons x r =>
          constructor
          · intro h; injection h with h; exact ⟨_, rfl, by simp, h.symm⟩
          · rintro ⟨t, h, h2, rfl⟩; injection h with h; subst h; rfl
    simp only [Means, ht]
    cases s with
    | argv a =>
      have e : parse o (.argv a) c = parseArgvString o a c := by unfold parse parseArgv; simp only [ht]
      rw [e, hargv]
      constructor
      · rintro ⟨t, k1, k2, k3⟩; exact ⟨_, Or.inl ⟨t, rfl, k2, k1⟩, by rw [hst]; exact k3⟩
      · rintro ⟨v, ⟨t, rfl, k2, k1⟩ | ⟨_, _, h⟩, rfl⟩
        · exact ⟨t, k1, k2, hst _⟩
        · cases h
    | json j =>
      have e : parse o (.json j) c = parseJsonString o j c := by unfold parse parseJson; simp only [ht]
      rw [e]
      cases j with
      | null =>
        have e : parseJsonString o .null c = if o.nullOk then .ok (c.set o.name (.str none)) else .fail (-eINVAL) := rfl
        rw [e]
        constructor
        · intro h
          by_cases hn : o.nullOk = true
          · rw [if_pos hn] at h; injection h with h; exact ⟨_, Or.inr ⟨rfl, hn, rfl⟩, by rw [hst]; exact h.symm⟩
          · rw [if_neg hn] at h; cases h
        · rintro ⟨v, ⟨t, rfl, k2, k1⟩ | ⟨rfl, hn, h⟩, rfl⟩
          · cases k1
          · rw [if_pos hn, hst]
      | str t =>
        have e : parseJsonString o (.str t) c = parseArgvString o (some t) c := rfl
        rw [e, hargv]
        constructor
        · rintro ⟨t, k1, k2, k3⟩; injection k1 with k1; subst k1; exact ⟨_, Or.inl ⟨_, rfl, k2, rfl⟩, by rw [hst]; exact k3⟩
        · rintro ⟨v, ⟨t', rfl, k2, k1⟩ | ⟨_, _, h⟩, rfl⟩
          · have k1 : Json.str t = .str t' := k1
            injection k1 with k1; subst k1; exact ⟨t, rfl, k2, hst _⟩
          · cases h
      | bool b =>
        constructor
        · intro h; cases h
        · rintro ⟨v, ⟨t', rfl, k2, k1⟩ | ⟨_, _, h⟩, rfl⟩
          · cases k1
          · cases h
      | int b =>
        constructor
        · intro h; cases h
        · rintro ⟨v, ⟨t', rfl, k2, k1⟩ | ⟨_, _, h⟩, rfl⟩
          · cases k1
          · cases h
      | real =>
        constructor
        · intro h; cases h
        · rintro ⟨v, ⟨t', rfl, k2, k1⟩ | ⟨_, _, h⟩, rfl⟩
          · cases k1
          · cases h
      | arr b =>
        constructor
        · intro h; cases h
        · rintro ⟨v, ⟨t', rfl, k2, k1⟩ | ⟨_, _, h⟩, rfl⟩
          · cases k1
          · cases h
      | obj b =>
        constructor
        · intro h; cases h
        · rintro ⟨v, ⟨t', rfl, k2, k1⟩ | ⟨_, _, h⟩, rfl⟩
          · cases k1
          · cases h
  | strings =>
    have hst : ∀ v, store o v c = c.set o.name v := fun v => by unfold store; rw [if_neg (by rw [ht]; intro h; cases h)]
    simp only [Means, ht]
    cases s with
    | argv a =>
      have e : parse o (.argv a) c = parseArgvStrings o a c := by unfold parse parseArgv; simp only [ht]
      rw [e]
      cases a with
      | none =>
        constructor
        · intro h; cases h
        · rintro ⟨v, ⟨n, _, _, t, h, _⟩, _⟩; cases h
      | some t =>
        rw [argvStrings_eq]
        constructor
        · intro h
          by_cases hm : o.max > 0 ∧ (fieldsOf 0x2C#8 t).length > o.max
          · rw [if_pos hm] at h; cases h
          · rw [if_neg hm] at h; injection h with h
            exact ⟨_, ⟨_, rfl, by omega, t, rfl, rfl⟩, by rw [hst]; exact h.symm⟩
        · rintro ⟨v, ⟨l, rfl, h1, t', h2, rfl⟩, rfl⟩
          injection h2 with h2
          subst h2
          rw [if_neg (by omega), hst]
    | json j =>
      have e : parse o (.json j) c = parseJsonStrings o j c := by unfold parse parseJson; simp only [ht]
      rw [e]
      cases j with
      | arr l =>
        have e : parseJsonStrings o (.arr l) c = if l.length = 0 then .ok (c.set o.name (.strs []))
          else if o.max > 0 ∧ l.length > o.max then .fail (-eINVAL)
          else match jsonStrs l with
            | none => .fail (-eINVAL)
            | some strs => .ok (c.set o.name (.strs strs)) := rfl
        rw [e]
        constructor
        · intro h
          by_cases h0 : l.length = 0
          · rw [if_pos h0] at h; injection h with h
            refine ⟨_, ⟨[], rfl, by simp, ?_⟩, by rw [hst]; exact h.symm⟩
            rw [List.eq_nil_of_length_eq_zero h0]; rfl
          · rw [if_neg h0] at h
            by_cases hm : o.max > 0 ∧ l.length > o.max
            · rw [if_pos hm] at h; cases h
            · rw [if_neg hm] at h
              cases hj : jsonStrs l with
              | none => rw [hj] at h; cases h
              | some r =>
                rw [hj] at h; injection h with h
                have hl := (jsonStrs_iff l r).1 hj
                refine ⟨_, ⟨r, rfl, ?_, by rw [hl]⟩, by rw [hst]; exact h.symm⟩
                rw [hl, List.length_map] at hm
                omega
        · rintro ⟨v, ⟨r, rfl, h1, h2⟩, rfl⟩
          injection h2 with h2
          have hr := (jsonStrs_iff l r).2 h2
          have hlen : l.length = r.length := by rw [h2, List.length_map]
          by_cases h0 : l.length = 0
          · have hr0 : r = [] := List.eq_nil_of_length_eq_zero (by omega)
            rw [if_pos h0, hst, hr0]
          · rw [if_neg h0, if_neg (by omega), hr, hst]
      | null =>
        constructor
        · intro h; cases h
        · rintro ⟨v, ⟨r, rfl, h1, h2⟩, rfl⟩; cases h2
      | bool b =>
        constructor
        · intro h; cases h
        · rintro ⟨v, ⟨r, rfl, h1, h2⟩, rfl⟩; cases h2
      | int b =>
        constructor
        · intro h; cases h
        · rintro ⟨v, ⟨r, rfl, h1, h2⟩, rfl⟩; cases h2
      | real =>
        constructor
        · intro h; cases h
        · rintro ⟨v, ⟨r, rfl, h1, h2⟩, rfl⟩; cases h2
      | str b =>
        constructor
        · intro h; cases h
        · rintro ⟨v, ⟨r, rfl, h1, h2⟩, rfl⟩; cases h2
      | obj b =>
        constructor
        · intro h; cases h
        · rintro ⟨v, ⟨r, rfl, h1, h2⟩, rfl⟩; cases h2
  | words ws =>
    have hst : ∀ v, store o v c = c.set o.name v := fun v => by unfold store; rw [if_neg (by rw [ht]; intro h; cases h)]
    have hn := wordsNodup o ho ws ht
    simp only [Means, ht]
    cases s with
    | argv a =>
      have e : parse o (.argv a) c = parseArgvWord o ws a c := by unfold parse parseArgv; simp only [ht]
      rw [e, argvWord_iff o ws hn]
      constructor
      · rintro ⟨t, n, k1, k2, k3⟩; exact ⟨_, ⟨t, n, rfl, k2, k1⟩, by rw [hst]; exact k3⟩
      · rintro ⟨v, ⟨t, n, rfl, k2, k1⟩, rfl⟩; exact ⟨t, n, k1, k2, hst _⟩
    | json j =>
      have e : parse o (.json j) c = parseJsonWord o ws j c := by unfold parse parseJson; simp only [ht]
      rw [e, parseJsonWord]
      constructor
      · intro h
        cases hj : parseJsonStr j with
        | none => rw [hj] at h; cases h
        | some a =>
          rw [hj] at h
          obtain ⟨t, n, k1, k2, k3⟩ := (argvWord_iff o ws hn a c c').1 h
          subst k1
          refine ⟨_, ⟨t, n, rfl, k2, ?_⟩, by rw [hst]; exact k3⟩
          cases j with
          | str s => injection hj with hj; injection hj with hj; rw [← hj]; rfl
          | null => cases hj
          | bool b => cases hj
          | int b => cases hj
          | real => cases hj
          | arr b => cases hj
          | obj b => cases hj
      · rintro ⟨v, ⟨t, n, rfl, k2, k1⟩, rfl⟩
        have k1 : j = .str t := k1
        subst k1
        rw [hst]
        exact (argvWord_iff o ws hn (some t) c _).2 ⟨t, n, rfl, k2, rfl⟩
  | incidences => exact absurd ht hi
  | callback =>
    simp only [Means, ht]
    cases s with
    | argv a =>
      have e : parse o (.argv a) c = .ub := by unfold parse parseArgv; simp only [ht]
      rw [e]
      exact ⟨(fun h => by cases h), (fun ⟨v, h, _⟩ => h.elim)⟩
    | json a =>
      have e : parse o (.json a) c = .ub := by unfold parse parseJson; simp only [ht]
      rw [e]
      exact ⟨(fun h => by cases h), (fun ⟨v, h, _⟩ => h.elim)⟩

theorem set_field (c : Conf) (k : Key) (v : Val) (k' : Key) : (c.set k v).field k' = if k' = k then v else c.field k' := rfl

theorem set_incid (c : Conf) (k : Key) (v : Val) : (c.set k v).incid = c.incid := rfl

theorem store_incid (o : Opt) (v : Val) (c : Conf) : (store o v c).incid = c.incid := by
  unfold store; split <;> rfl

theorem store_own (o : Opt) (ho : o ∈ options) (v : Val) (c : Conf) : (store o v c).field o.name = v := by
  have h : ∀ o ∈ options, o.type = .offline → o.name ≠ ["rsync", "enabled"] ∧ o.name ≠ ["http", "enabled"] := by decide
  unfold store
  by_cases ht : o.type = .offline
  · rw [if_pos ht]
    obtain ⟨h1, h2⟩ := h o ho ht
    rw [Conf.setEnabled, set_field, if_neg h2, set_field, if_neg h1, set_field, if_pos rfl]
  · rw [if_neg ht, set_field, if_pos rfl]

theorem store_enabled (o : Opt) (ht : o.type = .offline) (b : Bool) (c : Conf) (k : Key) (hk : k = ["rsync", "enabled"] ∨ k = ["http", "enabled"]) :
    (store o (.bool b) c).field k = .bool (!b) := by
  unfold store
  rw [if_pos ht, bool_false]
  rcases hk with rfl | rfl
  · rw [Conf.setEnabled, set_field, if_neg (by decide), set_field, if_pos rfl]
  · rw [Conf.setEnabled, set_field, if_pos rfl]

theorem store_other (o : Opt) (v : Val) (c : Conf) (k : Key) (h : ¬ Writes o k) : (store o v c).field k = c.field k := by
  unfold store
  have h1 : k ≠ o.name := fun h1 => h (Or.inl h1.symm)
  by_cases ht : o.type = .offline
  · rw [if_pos ht]
    have h2 : k ≠ ["rsync", "enabled"] := fun h2 => h (Or.inr ⟨ht, Or.inl h2⟩)
    have h3 : k ≠ ["http", "enabled"] := fun h2 => h (Or.inr ⟨ht, Or.inr h2⟩)
    rw [Conf.setEnabled, set_field, if_neg h3, set_field, if_neg h2, set_field, if_neg h1]
  · rw [if_neg ht, set_field, if_neg h1]

end Verif.Conf
