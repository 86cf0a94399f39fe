import Verif.Tree.Lemmas
/-
C93, C94: contracts of the pieces of the traversal which hold in every state, reached by the present traversal or not: the CRL of a
publication point, and the end of an interrupted traversal.
-/
namespace Verif.Tree
variable {σ U X C R S : Type}

/-- **C93.** Whatever came of a publication point's CRL, that's it: asking again, in whatever state the publication point is found
unchanged, whatever happened to the file meanwhile, yields the same and has no effect. -/
theorem C93_crl_once (env env' : Env σ U X C R S) (st st' st'' : St σ U X C R) (id : Nat) (r : CrlRes C)
    (h : rppCrl env st (some id) = some (st', r)) (hsame : st''.heap[id]? = st'.heap[id]?) :
    rppCrl env' st'' (some id) = some (st'', r) ∧ r ≠ .null := by
  unfold rppCrl at h
  simp only at h
  cases h1 : deref st id with
  | none => rw [h1] at h; cases h
  | some p =>
    rw [h1] at h
    simp only at h
    have hp : st.heap[id]? = some (some p) := by
      unfold deref at h1
      cases h2 : st.heap[id]? with
      | none => rw [h2] at h1; cases h1
      | some o => rw [h2] at h1; exact congrArg some h1
    have key : ∀ q : Pp U C, st''.heap[id]? = some (some q) → deref st'' id = some q := by
      intro q hq; unfold deref; rw [hq]; rfl
    cases h2 : p.crl with
    | loaded c =>
      rw [h2] at h
      simp only [Option.some.injEq, Prod.mk.injEq] at h
      obtain ⟨rfl, rfl⟩ := h
      unfold rppCrl
      simp only [key p (hsame.trans hp), h2]
      exact ⟨trivial, fun h => by cases h⟩
    | failed =>
      rw [h2] at h
      simp only [Option.some.injEq, Prod.mk.injEq] at h
      obtain ⟨rfl, rfl⟩ := h
      unfold rppCrl
      simp only [key p (hsame.trans hp), h2]
      exact ⟨trivial, fun h => by cases h⟩
    | unloaded =>
      rw [h2] at h
      simp only at h
      cases h3 : env.crlLoad st.s p.lists.crl with
      | mk s o =>
        rw [h3] at h
        cases o with
        | none =>
          simp only [Option.some.injEq, Prod.mk.injEq] at h
          obtain ⟨rfl, rfl⟩ := h
          unfold rppCrl
          simp only [key { p with crl := .failed } (hsame.trans (getElem?_set_same hp))]
          exact ⟨trivial, fun h => by cases h⟩
        | some c =>
          simp only [Option.some.injEq, Prod.mk.injEq] at h
          obtain ⟨rfl, rfl⟩ := h
          unfold rppCrl
          simp only [key { p with crl := .loaded c } (hsame.trans (getElem?_set_same hp))]
          exact ⟨trivial, fun h => by cases h⟩

/-- **C93.** Without its publication point's CRL, a certificate is rejected before anything of it is looked at. -/
theorem C93_no_crl_no_certificate (env : Env σ U X C R S) (st st' : St σ U X C R) (id : Nat) (u : U)
    (h : rppCrl env st (some id) = some (st', .err)) :
    ∃ st'', certTraverse env st (some id) u = some (st'', false) ∧ st''.log = st.log ∧ st''.defers = st.defers ∧
      st''.x509s = st.x509s ∧ st''.metas = st.metas := by
  have frame : st'.log = st.log ∧ st'.defers = st.defers ∧ st'.x509s = st.x509s ∧ st'.metas = st.metas := by
    unfold rppCrl at h
    simp only at h
    cases h1 : deref st id with
    | none => rw [h1] at h; cases h
    | some p =>
      rw [h1] at h
      simp only at h
      cases h2 : p.crl with
      | loaded c => rw [h2] at h; cases h
      | failed => rw [h2] at h; cases h; exact ⟨rfl, rfl, rfl, rfl⟩
      | unloaded =>
        rw [h2] at h
        simp only at h
        cases h3 : env.crlLoad st.s p.lists.crl with
        | mk s o =>
          rw [h3] at h
          cases o with
          | none => cases h; exact ⟨rfl, rfl, rfl, rfl⟩
          | some c => cases h
  unfold certTraverse
  by_cases hd : st.x509s.length ≥ env.maxDepth
  · rw [if_pos hd]; exact ⟨st, rfl, rfl, rfl, rfl, rfl⟩
  · rw [if_neg hd, h]; exact ⟨st', rfl, frame⟩

/-- **C93.** Without its publication point's CRL, a ROA or a Ghostbusters record has no effect. -/
theorem C93_no_crl_no_object (env : Env σ U X C R S) (st st' : St σ U X C R) (id : Nat) (u : U) (s : σ)
    (h : rppCrl env { st with s := s } (some id) = some (st', .err)) :
    (env.roaDecode st.s u = (s, true) → roaTraverse env st u id = some st') ∧
    (env.gbrDecode st.s u = (s, true) → gbrTraverse env st u id = some st') := by
  constructor
  · intro hd
    unfold roaTraverse
    rw [hd]
    simp only
    rw [h]
  · intro hd
    unfold gbrTraverse
    rw [hd]
    simp only
    rw [h]

/-- The references that deferred certificates have to a publication point. -/
def held (id : Nat) : List (Node U) → Nat
  | [] => 0
  | .sep :: ds => held id ds
  | .cert _ i :: ds => (if i = id then 1 else 0) + held id ds

/-- The references to a publication point; a freed one has none. -/
def refs (st : St σ U X C R) (id : Nat) : Nat := ((deref st id).map (·.refs)).getD 0

/-- Each publication point's count is positive unless it was freed. -/
def Counted (st : St σ U X C R) : Prop := ∀ id pp, deref st id = some pp → 0 < pp.refs

theorem deref_some {st : St σ U X C R} {id : Nat} {pp : Pp U C} (h : deref st id = some pp) : st.heap[id]? = some (some pp) := by
  unfold deref at h
  cases h2 : st.heap[id]? with
  | none => rw [h2] at h; cases h
  | some o => rw [h2] at h; exact congrArg some h

theorem deref_set {st : St σ U X C R} {id : Nat} {pp : Pp U C} (h : deref st id = some pp) (o : Option (Pp U C)) (j : Nat) :
    deref { st with heap := st.heap.set id o } j = if j = id then o else deref st j := by
  unfold deref
  simp only
  split
  · rename_i e
    subst e
    rw [getElem?_set_same (deref_some h)]
    rfl
  · rename_i e
    rw [List.getElem?_set_ne (Ne.symm e)]

theorem refput_spec {st : St σ U X C R} {id : Nat} (hc : Counted st) (hr : 0 < refs st id) :
    ∃ st', refput st id = some st' ∧ st'.defers = st.defers ∧ st'.s = st.s ∧ Counted st' ∧
      (∀ j, refs st' j = refs st j - if id = j then 1 else 0) ∧ ∀ j, (deref st' j).isSome = decide (0 < refs st' j) := by
  cases h1 : deref st id with
  | none => unfold refs at hr; rw [h1] at hr; exact absurd hr (Nat.lt_irrefl 0)
  | some pp =>
    have hpos := hc id pp h1
    unfold refput
    rw [h1]
    simp only
    have alive : ∀ j, (deref st j).isSome = decide (0 < refs st j) := by
      intro j
      cases h2 : deref st j with
      | none => unfold refs; rw [h2]; rfl
      | some q => unfold refs; rw [h2]; have := hc j q h2; simp [this]
    by_cases h0 : pp.refs - 1 = 0
    · rw [if_pos h0]
      refine ⟨_, rfl, rfl, rfl, ?_, ?_, ?_⟩
      · intro j q hq
        rw [deref_set h1] at hq
        split at hq
        · cases hq
        · exact hc j q hq
      · intro j
        unfold refs
        rw [deref_set h1]
        by_cases e : j = id
        · subst e; rw [if_pos rfl, if_pos rfl, h1]; simp only [Option.map_none, Option.getD_none, Option.map_some, Option.getD_some]; omega
        · rw [if_neg e, if_neg (Ne.symm e)]; rfl
      · intro j
        unfold refs
        rw [deref_set h1]
        by_cases e : j = id
        · rw [if_pos e]; rfl
        · rw [if_neg e]; exact alive j
    · rw [if_neg h0]
      refine ⟨_, rfl, rfl, rfl, ?_, ?_, ?_⟩
      · intro j q hq
        rw [deref_set h1] at hq
        split at hq
        · cases hq; show 0 < pp.refs - 1; omega
        · exact hc j q hq
      · intro j
        unfold refs
        rw [deref_set h1]
        by_cases e : j = id
        · subst e; rw [if_pos rfl, if_pos rfl, h1]; rfl
        · rw [if_neg e, if_neg (Ne.symm e)]; rfl
      · intro j
        unfold refs
        rw [deref_set h1]
        by_cases e : j = id
        · rw [if_pos e]; show true = decide (0 < pp.refs - 1); simp; omega
        · rw [if_neg e]; exact alive j

theorem destroyStack_spec : ∀ (ds : List (Node U)) (st : St σ U X C R), Counted st → (∀ id, held id ds ≤ refs st id) →
    ∃ st', destroyStack ds st = some st' ∧ st'.defers = [] ∧ st'.x509s = [] ∧ st'.metas = [] ∧ st'.s = st.s ∧ Counted st' ∧
      ∀ id, refs st' id = refs st id - held id ds := by
  intro ds
  induction ds with
  | nil =>
    intro st hc _
    exact ⟨_, rfl, rfl, rfl, rfl, rfl, hc, fun id => by simp only [held, Nat.sub_zero]; rfl⟩
  | cons n ds ih =>
    intro st hc hh
    cases n with
    | sep =>
      obtain ⟨st', e, h1, h2, h3, h4, h5, h6⟩ := ih { st with defers := ds } hc hh
      exact ⟨st', e, h1, h2, h3, h4, h5, h6⟩
    | cert u i =>
      have hi : 0 < refs { st with defers := ds } i := by
        have := hh i
        simp only [held] at this
        rw [if_pos trivial] at this
        exact Nat.lt_of_lt_of_le (by omega) this
      obtain ⟨st1, e1, _, hs, hc1, hr1, _⟩ := refput_spec (st := { st with defers := ds }) hc hi
      have hh1 : ∀ id, held id ds ≤ refs st1 id := by
        intro id
        have := hh id
        simp only [held] at this
        rw [hr1]
        show held id ds ≤ refs st id - _
        split at this <;> simp_all <;> omega
      obtain ⟨st', e, h1, h2, h3, h4, h5, h6⟩ := ih st1 hc1 hh1
      refine ⟨st', ?_, h1, h2, h3, h4.trans hs, h5, ?_⟩
      · unfold destroyStack deferDestroy
        simp only
        rw [e1]
        exact e
      · intro id
        rw [h6, hr1]
        show refs st id - _ - _ = _
        simp only [held]
        omega

/-- **C94.** A traversal can be abandoned at any point: destroying its stacks, whatever is still deferred, does not crash, and drops
exactly the references that the deferred certificates had. A publication point is freed exactly if nobody else refers to it. -/
theorem C94_abandon (st : St σ U X C R) (hc : Counted st) (hh : ∀ id, held id st.defers ≤ refs st id) :
    ∃ st', destroyStack st.defers st = some st' ∧ st'.defers = [] ∧ st'.x509s = [] ∧ st'.metas = [] ∧ st'.s = st.s ∧
      (∀ id, refs st' id = refs st id - held id st.defers) ∧
      ∀ id, deref st' id = none ↔ refs st id = held id st.defers := by
  obtain ⟨st', e, h1, h2, h3, h4, h5, h6⟩ := destroyStack_spec st.defers st hc hh
  refine ⟨st', e, h1, h2, h3, h4, h6, fun id => ?_⟩
  have hr := h6 id
  have hh' := hh id
  constructor
  · intro hd
    have : refs st' id = 0 := by unfold refs; rw [hd]; rfl
    omega
  · intro he
    cases hd : deref st' id with
    | none => rfl
    | some pp =>
      have hp := h5 id pp hd
      have : refs st' id = pp.refs := by unfold refs; rw [hd]; rfl
      omega

/-- Two publication points, three deferred certificates, one separator; the second publication point has another user. -/
def abandoned : St Unit String Unit String Unit :=
  ⟨[.cert "a" 0, .cert "b" 0, .sep, .cert "c" 1], [()], [("m", ())],
    [some ⟨⟨["a", "b"], "r", [], []⟩, .loaded "crl", 2⟩, some ⟨⟨["c"], "r", [], []⟩, .failed, 2⟩], (), []⟩

/-- C94's hypotheses hold there. -/
example : Counted abandoned ∧ ∀ id, held id abandoned.defers ≤ refs abandoned id := by
  constructor
  · intro id pp h
    match id with
    | 0 => cases h; decide
    | 1 => cases h; decide
    | n + 2 => cases h
  · intro id
    match id with
    | 0 => decide
    | 1 => decide
    | n + 2 => simp [held, abandoned]

example : (destroyStack abandoned.defers abandoned).map (·.heap) =
    some [none, some ⟨⟨["c"], "r", [], []⟩, .failed, 1⟩] := rfl

/-- C93's hypotheses hold for the second publication point, whose CRL failed. -/
example (env : Env Unit String Unit String Unit Unit) : rppCrl env abandoned (some 1) = some (abandoned, .err) := rfl

end Verif.Tree
