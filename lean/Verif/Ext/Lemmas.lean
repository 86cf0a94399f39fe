import Verif.Ext.Spec
import Mathlib.Tactic.ByContra
/-
The walk over the table and the list of extensions.
-/
namespace Verif.Ext

variable {V S : Type}

/-- The handlers, where those of `seen` were found. -/
def mark (table : List (Handler V S)) (seen : List Nid) : List (Handler V S × Bool) := table.map (fun h => (h, decide (h.nid ∈ seen)))

theorem mark_nil (table : List (Handler V S)) : table.map (·, false) = mark table [] := by simp [mark]

theorem mark_other {table : List (Handler V S)} {n : Nid} {seen : List Nid} (h : ∀ x ∈ table, x.nid ≠ n) : mark table (n :: seen) = mark table seen := by
  unfold mark
  apply List.map_congr_left
  intro x hx
  simp [h x hx]

theorem handleExtension_iff (table : List (Handler V S)) (hn : (table.map (·.nid)).Nodup) (seen : List Nid) (e : Ext V) (s s' : S) (hs' : List (Handler V S × Bool)) :
    handleExtension (mark table seen) e s = .ok (hs', s') ↔
      hs' = mark table (e.nid :: seen) ∧
      ((∃ h ∈ table, h.nid = e.nid ∧ e.nid ∉ seen ∧ runHandler h e s = .ok s') ∨ ((∀ h ∈ table, h.nid ≠ e.nid) ∧ e.critical = false ∧ s' = s)) := by
  induction table generalizing hs' with
  | nil =>
    simp only [mark, List.map_nil, handleExtension]
    by_cases hc : e.critical = false
    · rw [if_pos hc]
      constructor
      · intro h
        injection h with h
        injection h with h1 h2
        exact ⟨h1.symm, .inr ⟨(fun _ hx => by cases hx), hc, h2.symm⟩⟩
      · rintro ⟨rfl, ⟨h, hx, -⟩ | ⟨-, -, rfl⟩⟩
        · cases hx
        · rfl
    · rw [if_neg hc]
      constructor
      · intro h
        cases h
      · rintro ⟨rfl, ⟨h, hx, -⟩ | ⟨-, h, -⟩⟩
        · cases hx
        · exact absurd h hc
  | cons h table ih =>
    have hn' : (table.map (·.nid)).Nodup ∧ ∀ x ∈ table, x.nid ≠ h.nid := by
      rw [List.map_cons, List.nodup_cons] at hn
      exact ⟨hn.2, fun x hx he => hn.1 (List.mem_map.2 ⟨x, hx, he⟩)⟩
    show handleExtension ((h, decide (h.nid ∈ seen)) :: mark table seen) e s = _ ↔ _
    rw [handleExtension]
    by_cases he : h.nid = e.nid
    · rw [if_pos he]
      have hmark : mark (h :: table) (e.nid :: seen) = (h, true) :: mark table seen := by
        show (h, decide (h.nid ∈ e.nid :: seen)) :: mark table (e.nid :: seen) = _
        rw [mark_other (fun x hx => he ▸ hn'.2 x hx)]
        simp [he]
      rw [hmark]
      by_cases hs : h.nid ∈ seen
      · simp only [hs, decide_true, if_true]
        constructor
        · intro h
          cases h
        · rintro ⟨-, ⟨x, hx, h1, h2, -⟩ | ⟨h1, -⟩⟩
          · exact absurd (he ▸ hs) h2
          · exact absurd he (h1 h List.mem_cons_self)
      · simp only [hs, decide_false]
        rw [if_neg (by decide)]
        cases hr : runHandler h e s with
        | ok s1 =>
          simp only
          constructor
          · intro hh
            injection hh with hh
            injection hh with h1 h2
            subst h2
            exact ⟨h1.symm, .inl ⟨h, List.mem_cons_self, he, he ▸ hs, hr⟩⟩
          · rintro ⟨rfl, ⟨x, hx, h1, h2, h3⟩ | ⟨h1, -⟩⟩
            · rcases List.mem_cons.1 hx with rfl | hx
              · rw [hr] at h3
                injection h3 with h3
                rw [h3]
              · exact absurd (h1.trans he.symm) (hn'.2 x hx)
            · exact absurd he (h1 h List.mem_cons_self)
        | fail err =>
          simp only
          constructor
          · intro h
            cases h
          · rintro ⟨-, ⟨x, hx, h1, h2, h3⟩ | ⟨h1, -⟩⟩
            · rcases List.mem_cons.1 hx with rfl | hx
              · rw [hr] at h3
                cases h3
              · exact absurd (h1.trans he.symm) (hn'.2 x hx)
            · exact absurd he (h1 h List.mem_cons_self)
        | ub =>
          simp only
          constructor
          · intro h
            cases h
          · rintro ⟨-, ⟨x, hx, h1, h2, h3⟩ | ⟨h1, -⟩⟩
            · rcases List.mem_cons.1 hx with rfl | hx
              · rw [hr] at h3
                cases h3
              · exact absurd (h1.trans he.symm) (hn'.2 x hx)
            · exact absurd he (h1 h List.mem_cons_self)
    · rw [if_neg he]
      have hmark : mark (h :: table) (e.nid :: seen) = (h, decide (h.nid ∈ seen)) :: mark table (e.nid :: seen) := by
        show (h, decide (h.nid ∈ e.nid :: seen)) :: mark table (e.nid :: seen) = _
        simp [he]
      rw [hmark]
      have hex : (∃ x ∈ h :: table, x.nid = e.nid ∧ e.nid ∉ seen ∧ runHandler x e s = .ok s') ↔ ∃ x ∈ table, x.nid = e.nid ∧ e.nid ∉ seen ∧ runHandler x e s = .ok s' := by
        simp [he]
      have hall : (∀ x ∈ h :: table, x.nid ≠ e.nid) ↔ ∀ x ∈ table, x.nid ≠ e.nid := by simp [he]
      rw [hex, hall]
      cases hr : handleExtension (mark table seen) e s with
      | ok p =>
        obtain ⟨hs1, s1⟩ := p
        simp only
        constructor
        · intro hh
          injection hh with hh
          injection hh with h1 h2
          subst h2
          have := (ih hn'.1 hs1).1 hr
          exact ⟨by rw [← h1, this.1], this.2⟩
        · rintro ⟨rfl, h1⟩
          have := (ih hn'.1 _).2 ⟨rfl, h1⟩
          rw [hr] at this
          injection this with this
          injection this with h2 h3
          rw [h2, h3]
      | fail err =>
        simp only
        constructor
        · intro h
          cases h
        · rintro ⟨rfl, h1⟩
          have := (ih hn'.1 _).2 ⟨rfl, h1⟩
          rw [hr] at this
          cases this
      | ub =>
        simp only
        constructor
        · intro h
          cases h
        · rintro ⟨rfl, h1⟩
          have := (ih hn'.1 _).2 ⟨rfl, h1⟩
          rw [hr] at this
          cases this

/-- What the loop over the extensions does. -/
inductive Steps (table : List (Handler V S)) : List Nid → List (Ext V) → S → S → Prop where
  | nil (seen : List Nid) (s : S) : Steps table seen [] s s
  | known {seen e es s s1 s'} (h : Handler V S) : h ∈ table → h.nid = e.nid → e.nid ∉ seen → runHandler h e s = .ok s1 → Steps table (e.nid :: seen) es s1 s' →
      Steps table seen (e :: es) s s'
  | unknown {seen e es s s'} : (∀ h ∈ table, h.nid ≠ e.nid) → e.critical = false → Steps table (e.nid :: seen) es s s' → Steps table seen (e :: es) s s'

theorem extLoop_iff (table : List (Handler V S)) (hn : (table.map (·.nid)).Nodup) (es : List (Ext V)) : ∀ (seen : List Nid) (s s' : S) (hs' : List (Handler V S × Bool)),
    extLoop es (mark table seen) s = .ok (hs', s') ↔ hs' = mark table ((es.map (·.nid)).reverse ++ seen) ∧ Steps table seen es s s' := by
  induction es with
  | nil =>
    intro seen s s' hs'
    simp only [extLoop, List.map_nil, List.reverse_nil, List.nil_append]
    constructor
    · intro h
      injection h with h
      injection h with h1 h2
      subst h2
      exact ⟨h1.symm, .nil _ _⟩
    · rintro ⟨rfl, h⟩
      cases h
      rfl
  | cons e es ih =>
    intro seen s s' hs'
    rw [extLoop]
    have hrev : ((e :: es).map (·.nid)).reverse ++ seen = (es.map (·.nid)).reverse ++ (e.nid :: seen) := by simp
    rw [hrev]
    cases hr : handleExtension (mark table seen) e s with
    | ok p =>
      obtain ⟨hs1, s1⟩ := p
      simp only
      obtain ⟨h1, h2⟩ := (handleExtension_iff table hn seen e s s1 hs1).1 hr
      rw [h1, ih]
      apply and_congr_right
      intro _
      constructor
      · intro h3
        rcases h2 with ⟨h, ha, hb, hc, hd⟩ | ⟨ha, hb, rfl⟩
        · exact .known h ha hb hc hd h3
        · exact .unknown ha hb h3
      · intro h3
        cases h3 with
        | @known _ _ _ _ s2 _ h ha hb hc hd h3 =>
          have h4 := (handleExtension_iff table hn seen e s s2 _).2 ⟨rfl, .inl ⟨h, ha, hb, hc, hd⟩⟩
          rw [hr] at h4
          injection h4 with h4
          injection h4 with h4 h5
          rw [h5]
          exact h3
        | unknown ha hb h3 =>
          have h4 := (handleExtension_iff table hn seen e s s _).2 ⟨rfl, .inr ⟨ha, hb, rfl⟩⟩
          rw [hr] at h4
          injection h4 with h4
          injection h4 with h4 h5
          rw [h5]
          exact h3
    | fail err =>
      simp only
      constructor
      · intro h
        cases h
      · rintro ⟨-, h3⟩
        exfalso
        cases h3 with
        | known h ha hb hc hd h3 =>
          have h4 := (handleExtension_iff table hn seen e s _ _).2 ⟨rfl, .inl ⟨h, ha, hb, hc, hd⟩⟩
          rw [hr] at h4
          cases h4
        | unknown ha hb h3 =>
          have h4 := (handleExtension_iff table hn seen e s s _).2 ⟨rfl, .inr ⟨ha, hb, rfl⟩⟩
          rw [hr] at h4
          cases h4
    | ub =>
      simp only
      constructor
      · intro h
        cases h
      · rintro ⟨-, h3⟩
        exfalso
        cases h3 with
        | known h ha hb hc hd h3 =>
          have h4 := (handleExtension_iff table hn seen e s _ _).2 ⟨rfl, .inl ⟨h, ha, hb, hc, hd⟩⟩
          rw [hr] at h4
          cases h4
        | unknown ha hb h3 =>
          have h4 := (handleExtension_iff table hn seen e s s _).2 ⟨rfl, .inr ⟨ha, hb, rfl⟩⟩
          rw [hr] at h4
          cases h4

theorem runHandler_iff (h : Handler V S) (e : Ext V) (s s' : S) : runHandler h e s = .ok s' ↔
    e.critical = h.critical ∧ ((h.cb = none ∧ s' = s) ∨ ∃ cb v, h.cb = some cb ∧ e.value = some v ∧ cb v s = .ok s') := by
  unfold runHandler
  cases h1 : h.critical <;> cases h2 : e.critical <;> simp only [Bool.false_eq_true, and_false, false_and, and_self, if_true, if_false, reduceCtorEq, true_and] <;>
    cases h3 : h.cb with
    | none => simp [eq_comm]
    | some cb =>
      cases h4 : e.value with
      | none => simp
      | some v => simp

theorem nodup_unique {table : List (Handler V S)} (hn : (table.map (·.nid)).Nodup) {a b : Handler V S} (ha : a ∈ table) (hb : b ∈ table) (h : a.nid = b.nid) : a = b := by
  induction table with
  | nil => cases ha
  | cons x l ih =>
    rw [List.map_cons, List.nodup_cons] at hn
    rcases List.mem_cons.1 ha with rfl | ha <;> rcases List.mem_cons.1 hb with rfl | hb
    · rfl
    · exact absurd (List.mem_map.2 ⟨b, hb, h.symm⟩) hn.1
    · exact absurd (List.mem_map.2 ⟨a, (by assumption), h⟩) hn.1
    · exact ih hn.2 ha hb

theorem filter_cons_len (e : Ext V) (es : List (Ext V)) (n : Nid) :
    ((e :: es).filter (fun x => x.nid = n)).length = (if e.nid = n then 1 else 0) + (es.filter (fun x => x.nid = n)).length := by
  rw [List.filter_cons]
  by_cases h : e.nid = n <;> simp [h]
  omega

theorem filter_len_zero (es : List (Ext V)) (n : Nid) : (es.filter (fun x => x.nid = n)).length = 0 ↔ ∀ e ∈ es, e.nid ≠ n := by
  rw [List.length_eq_zero_iff, List.filter_eq_nil_iff]
  simp

/-- The conditions on the list, without the callbacks. -/
theorem steps_iff (table : List (Handler V S)) (hn : (table.map (·.nid)).Nodup) (es : List (Ext V)) : ∀ (seen : List Nid) (s s' : S),
    Steps table seen es s s' ↔
      (∀ e ∈ es, ∀ h ∈ table, h.nid = e.nid → e.critical = h.critical) ∧
      (∀ e ∈ es, (∀ h ∈ table, h.nid ≠ e.nid) → e.critical = false) ∧
      (∀ h ∈ table, AtMostOnce es h.nid ∧ (h.nid ∈ seen → ∀ e ∈ es, e.nid ≠ h.nid)) ∧
      Runs table es s s' := by
  induction es with
  | nil =>
    intro seen s s'
    constructor
    · intro h
      cases h
      exact ⟨(fun _ h => by cases h), (fun _ h => by cases h), fun _ _ => ⟨Nat.zero_le _, (fun _ _ h => by cases h)⟩, .nil _⟩
    · rintro ⟨-, -, -, h⟩
      cases h
      exact .nil _ _
  | cons e es ih =>
    intro seen s s'
    constructor
    · intro h
      cases h with
      | @known _ _ _ _ s1 _ h ha hb hc hd h3 =>
        obtain ⟨i1, i2, i3, i4⟩ := (ih _ _ _).1 h3
        obtain ⟨r1, r2⟩ := (runHandler_iff h e s s1).1 hd
        refine ⟨?_, ?_, ?_, ?_⟩
        · intro x hx k hk hkx
          rcases List.mem_cons.1 hx with rfl | hx
          · rw [nodup_unique hn hk ha (hkx.trans hb.symm)]
            exact r1
          · exact i1 x hx k hk hkx
        · intro x hx hk
          rcases List.mem_cons.1 hx with rfl | hx
          · exact absurd hb (hk h ha)
          · exact i2 x hx hk
        · intro k hk
          refine ⟨?_, ?_⟩
          · unfold AtMostOnce
            rw [filter_cons_len]
            by_cases he : e.nid = k.nid
            · rw [if_pos he, (filter_len_zero es k.nid).2 ((i3 k hk).2 (by rw [he]; exact List.mem_cons_self))]
              omega
            · rw [if_neg he]
              have := (i3 k hk).1
              unfold AtMostOnce at this
              omega
          · intro hs x hx hxk
            rcases List.mem_cons.1 hx with rfl | hx
            · exact hc (hxk ▸ hs)
            · exact (i3 k hk).2 (List.mem_cons_of_mem _ hs) x hx hxk
        · rcases r2 with ⟨r2, rfl⟩ | ⟨cb, v, r2, r3, r4⟩
          · exact .skip (fun k hk hke => by rw [nodup_unique hn hk ha (hke.trans hb.symm)]; exact r2) i4
          · exact .run h cb v ha hb r2 r3 r4 i4
      | unknown ha hb h3 =>
        obtain ⟨i1, i2, i3, i4⟩ := (ih _ _ _).1 h3
        refine ⟨?_, ?_, ?_, ?_⟩
        · intro x hx k hk hkx
          rcases List.mem_cons.1 hx with rfl | hx
          · exact absurd hkx (ha k hk)
          · exact i1 x hx k hk hkx
        · intro x hx hk
          rcases List.mem_cons.1 hx with rfl | hx
          · exact hb
          · exact i2 x hx hk
        · intro k hk
          refine ⟨?_, ?_⟩
          · unfold AtMostOnce
            rw [filter_cons_len, if_neg (fun h => ha k hk h.symm)]
            have := (i3 k hk).1
            unfold AtMostOnce at this
            omega
          · intro hs x hx hxk
            rcases List.mem_cons.1 hx with rfl | hx
            · exact ha k hk hxk.symm
            · exact (i3 k hk).2 (List.mem_cons_of_mem _ hs) x hx hxk
        · exact .skip (fun k hk hke => absurd hke (ha k hk)) i4
    · rintro ⟨i1, i2, i3, i4⟩
      have tail : ∀ s1, Runs table es s1 s' → Steps table (e.nid :: seen) es s1 s' := by
        intro s1 hr
        refine (ih _ _ _).2 ⟨fun x hx => i1 x (List.mem_cons_of_mem _ hx), fun x hx => i2 x (List.mem_cons_of_mem _ hx), ?_, hr⟩
        intro k hk
        have hlen := (i3 k hk).1
        unfold AtMostOnce at hlen
        rw [filter_cons_len] at hlen
        refine ⟨?_, ?_⟩
        · unfold AtMostOnce
          omega
        · intro hs
          rcases List.mem_cons.1 hs with hs | hs
          · rw [if_pos hs.symm] at hlen
            exact (filter_len_zero es k.nid).1 (by omega)
          · exact fun x hx => (i3 k hk).2 hs x (List.mem_cons_of_mem _ hx)
      cases i4 with
      | skip hk hr =>
        by_cases hex : ∃ h ∈ table, h.nid = e.nid
        · obtain ⟨h, ha, hb⟩ := hex
          refine .known h ha hb (fun hs => (i3 h ha).2 (by rw [hb]; exact hs) e List.mem_cons_self hb.symm) ?_ (tail _ hr)
          exact (runHandler_iff h e s s).2 ⟨i1 e List.mem_cons_self h ha hb, .inl ⟨hk h ha hb, rfl⟩⟩
        · have hex : ∀ h ∈ table, h.nid ≠ e.nid := fun h ha hb => hex ⟨h, ha, hb⟩
          exact .unknown hex (i2 e List.mem_cons_self hex) (tail _ hr)
      | @run _ _ _ s1 _ h cb v ha hb hc hd he hr =>
        refine .known h ha hb (fun hs => (i3 h ha).2 (by rw [hb]; exact hs) e List.mem_cons_self hb.symm) ?_ (tail _ hr)
        exact (runHandler_iff h e s s1).2 ⟨i1 e List.mem_cons_self h ha hb, .inr ⟨cb, v, hc, hd, he⟩⟩

/-- If no callback is undefined for these values, the result isn't. -/
theorem handleExtension_not_ub (e : Ext V) : ∀ (hs : List (Handler V S × Bool)) (s : S),
    (∀ h ∈ hs, h.1.nid = e.nid → ∀ cb v, h.1.cb = some cb → e.value = some v → cb v s ≠ .ub) → handleExtension hs e s ≠ .ub := by
  intro hs
  induction hs with
  | nil =>
    intro s _
    rw [handleExtension]
    by_cases hc : e.critical = false
    · rw [if_pos hc]
      intro h
      cases h
    · rw [if_neg hc]
      intro h
      cases h
  | cons x hs ih =>
    obtain ⟨h, found⟩ := x
    intro s hcb
    rw [handleExtension]
    by_cases he : h.nid = e.nid
    · rw [if_pos he]
      cases found with
      | true => rw [if_pos rfl]; intro h; cases h
      | false =>
        rw [if_neg (by decide)]
        cases hr : runHandler h e s with
        | ok s => intro h; cases h
        | fail err => intro h; cases h
        | ub =>
          exfalso
          unfold runHandler at hr
          by_cases c1 : h.critical = true ∧ e.critical = false
          · rw [if_pos c1] at hr; cases hr
          · rw [if_neg c1] at hr
            by_cases c2 : h.critical = false ∧ e.critical = true
            · rw [if_pos c2] at hr; cases hr
            · rw [if_neg c2] at hr
              cases c3 : h.cb with
              | none => rw [c3] at hr; cases hr
              | some cb =>
                rw [c3] at hr
                cases c4 : e.value with
                | none => rw [c4] at hr; cases hr
                | some v =>
                  rw [c4] at hr
                  exact hcb (h, false) List.mem_cons_self he cb v c3 c4 hr
    · rw [if_neg he]
      have := ih s (fun k hk => hcb k (List.mem_cons_of_mem _ hk))
      cases hr : handleExtension hs e s with
      | ok p => intro h; cases h
      | fail err => intro h; cases h
      | ub => exact absurd hr this

theorem handleExtension_table (e : Ext V) : ∀ (hs hs' : List (Handler V S × Bool)) (s s' : S), handleExtension hs e s = .ok (hs', s') → hs'.map (·.1) = hs.map (·.1) := by
  intro hs
  induction hs with
  | nil =>
    intro hs' s s' h
    rw [handleExtension] at h
    by_cases hc : e.critical = false
    · rw [if_pos hc] at h
      injection h with h
      injection h with h1 h2
      rw [← h1]
    · rw [if_neg hc] at h
      cases h
  | cons x hs ih =>
    obtain ⟨k, found⟩ := x
    intro hs' s s' h
    rw [handleExtension] at h
    by_cases he : k.nid = e.nid
    · rw [if_pos he] at h
      cases found with
      | true => rw [if_pos rfl] at h; cases h
      | false =>
        rw [if_neg (by decide)] at h
        cases hr : runHandler k e s with
        | ok s1 =>
          rw [hr] at h
          injection h with h
          injection h with h1 h2
          rw [← h1]
          rfl
        | fail err => rw [hr] at h; cases h
        | ub => rw [hr] at h; cases h
    · rw [if_neg he] at h
      cases hr : handleExtension hs e s with
      | ok p =>
        obtain ⟨hs1, s1⟩ := p
        rw [hr] at h
        injection h with h
        injection h with h1 h2
        rw [← h1, List.map_cons, List.map_cons, ih hs1 s s1 hr]
      | fail err => rw [hr] at h; cases h
      | ub => rw [hr] at h; cases h

theorem extLoop_not_ub : ∀ (es : List (Ext V)) (hs : List (Handler V S × Bool)) (s : S),
    (∀ e ∈ es, ∀ h ∈ hs.map (·.1), h.nid = e.nid → ∀ cb v, h.cb = some cb → e.value = some v → ∀ s, cb v s ≠ .ub) → extLoop es hs s ≠ .ub := by
  intro es
  induction es with
  | nil => intro hs s _ h; cases h
  | cons e es ih =>
    intro hs s hcb
    rw [extLoop]
    have h1 := handleExtension_not_ub e hs s (fun h hh hn cb v c1 c2 => hcb e List.mem_cons_self h.1 (List.mem_map.2 ⟨h, hh, rfl⟩) hn cb v c1 c2 s)
    cases hr : handleExtension hs e s with
    | ok p =>
      obtain ⟨hs1, s1⟩ := p
      apply ih
      rw [handleExtension_table e hs hs1 s s1 hr]
      exact fun x hx => hcb x (List.mem_cons_of_mem _ hx)
    | fail err => intro h; cases h
    | ub => exact absurd hr h1

theorem handleExtensions_not_ub (table : List (Handler V S)) (exts : List (Ext V)) (s : S)
    (hcb : ∀ e ∈ exts, ∀ h ∈ table, h.nid = e.nid → ∀ cb v, h.cb = some cb → e.value = some v → ∀ s, cb v s ≠ .ub) : handleExtensions table exts s ≠ .ub := by
  unfold handleExtensions
  have h1 := extLoop_not_ub exts (table.map (·, false)) s (by
    rw [List.map_map]
    intro e he h hh
    refine hcb e he h ?_
    rw [List.mem_map] at hh
    obtain ⟨x, hx, rfl⟩ := hh
    exact hx)
  cases hr : extLoop exts (table.map (·, false)) s with
  | ok p =>
    obtain ⟨hs1, s1⟩ := p
    simp only
    by_cases hm : hs1.any (fun h => h.1.mandatory && !h.2) = true
    · rw [if_pos hm]; intro h; cases h
    · rw [if_neg hm]; intro h; cases h
  | fail err => intro h; cases h
  | ub => exact absurd hr h1

theorem missing_iff (table : List (Handler V S)) (seen : List Nid) :
    (mark table seen).any (fun h => h.1.mandatory && !h.2) = false ↔ ∀ h ∈ table, h.mandatory = true → h.nid ∈ seen := by
  rw [Bool.eq_false_iff, ne_eq, List.any_eq_true]
  constructor
  · intro hn h hh hm
    by_contra hs
    exact hn ⟨(h, decide (h.nid ∈ seen)), List.mem_map.2 ⟨h, hh, rfl⟩, by simp [hm, hs]⟩
  · rintro hn ⟨x, hx, hb⟩
    obtain ⟨h, hh, rfl⟩ := List.mem_map.1 hx
    simp only [Bool.and_eq_true, Bool.not_eq_true', decide_eq_false_iff_not] at hb
    exact hb.2 (hn h hh hb.1)

/-- From a run: the callback of an extension that's there once is run on it; nothing else touches what it writes. -/
theorem runs_field {α : Type} (table : List (Handler V S)) (hn : (table.map (·.nid)).Nodup) (π : S → α) (h : Handler V S) (hh : h ∈ table) (cb : V → S → Out S)
    (hc : h.cb = some cb)
    (hπ : ∀ k ∈ table, k.nid ≠ h.nid → ∀ c v s s', k.cb = some c → c v s = .ok s' → π s' = π s) :
    ∀ (es : List (Ext V)) (s s' : S), Runs table es s s' → AtMostOnce es h.nid →
      ((∀ e ∈ es, e.nid ≠ h.nid) → π s' = π s) ∧
      (∀ e ∈ es, e.nid = h.nid → ∃ v s1 s2, e.value = some v ∧ cb v s1 = .ok s2 ∧ π s1 = π s ∧ π s' = π s2) := by
  intro es s s' hr
  induction hr with
  | nil s => exact fun _ => ⟨fun _ => rfl, (fun _ h => by cases h)⟩
  | @skip e es s s' hk hr ih =>
    intro hone
    have he : e.nid ≠ h.nid := by
      intro he
      rw [hk h hh he.symm] at hc
      cases hc
    unfold AtMostOnce at hone
    rw [filter_cons_len, if_neg he, Nat.zero_add] at hone
    obtain ⟨i1, i2⟩ := ih hone
    refine ⟨fun ha => i1 (fun x hx => ha x (List.mem_cons_of_mem _ hx)), ?_⟩
    intro x hx hxn
    rcases List.mem_cons.1 hx with rfl | hx
    · exact absurd hxn he
    · exact i2 x hx hxn
  | @run e es s s1 s' k c v hk hke hkc hv hrun hr ih =>
    intro hone
    unfold AtMostOnce at hone
    rw [filter_cons_len] at hone
    by_cases he : e.nid = h.nid
    · rw [if_pos he] at hone
      have hz := (filter_len_zero es h.nid).1 (by omega)
      obtain ⟨i1, -⟩ := ih (by unfold AtMostOnce; omega)
      have hkh : k = h := nodup_unique hn hk hh (hke.trans he)
      subst hkh
      rw [hc] at hkc
      injection hkc with hkc
      subst hkc
      refine ⟨fun ha => absurd he (ha e List.mem_cons_self), ?_⟩
      intro x hx hxn
      rcases List.mem_cons.1 hx with rfl | hx
      · exact ⟨v, s, s1, hv, hrun, rfl, i1 hz⟩
      · exact absurd hxn (hz x hx)
    · rw [if_neg he, Nat.zero_add] at hone
      obtain ⟨i1, i2⟩ := ih hone
      have hp := hπ k hk (fun hx => he (hke.symm.trans hx)) c v s s1 hkc hrun
      refine ⟨fun ha => (i1 (fun x hx => ha x (List.mem_cons_of_mem _ hx))).trans hp, ?_⟩
      intro x hx hxn
      rcases List.mem_cons.1 hx with rfl | hx
      · exact absurd hxn he
      · obtain ⟨v, a, b, h1, h2, h3, h4⟩ := i2 x hx hxn
        exact ⟨v, a, b, h1, h2, h3.trans hp, h4⟩

/-- What no callback touches doesn't change. -/
theorem runs_frame {α : Type} (table : List (Handler V S)) (π : S → α)
    (hπ : ∀ k ∈ table, ∀ c v s s', k.cb = some c → c v s = .ok s' → π s' = π s) (es : List (Ext V)) (s s' : S) (hr : Runs table es s s') : π s' = π s := by
  induction hr with
  | nil s => rfl
  | skip _ _ ih => exact ih
  | run k c v hk hke hkc hv hrun hr ih => exact ih.trans (hπ k hk c v _ _ hkc hrun)

/-- If each callback accepts its value whatever the state, there is a run. -/
theorem runs_exists (table : List (Handler V S)) : ∀ (es : List (Ext V)),
    (∀ e ∈ es, ∀ h ∈ table, h.nid = e.nid → ∀ cb, h.cb = some cb → ∃ v, e.value = some v ∧ ∀ s, ∃ s', cb v s = .ok s') → ∀ s, ∃ s', Runs table es s s' := by
  intro es
  induction es with
  | nil => exact fun _ s => ⟨s, .nil s⟩
  | cons e es ih =>
    intro hcb s
    by_cases hex : ∃ h ∈ table, h.nid = e.nid ∧ ∃ cb, h.cb = some cb
    · obtain ⟨h, hh, hn, cb, hc⟩ := hex
      obtain ⟨v, hv, hok⟩ := hcb e List.mem_cons_self h hh hn cb hc
      obtain ⟨s1, h1⟩ := hok s
      obtain ⟨s2, h2⟩ := ih (fun x hx => hcb x (List.mem_cons_of_mem _ hx)) s1
      exact ⟨s2, .run h cb v hh hn hc hv h1 h2⟩
    · obtain ⟨s2, h2⟩ := ih (fun x hx => hcb x (List.mem_cons_of_mem _ hx)) s
      refine ⟨s2, .skip (fun h hh hn => ?_) h2⟩
      cases hc : h.cb with
      | none => rfl
      | some cb => exact absurd ⟨h, hh, hn, cb, hc⟩ hex

end Verif.Ext
