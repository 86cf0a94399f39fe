import Verif.Tree.Spec
/-
The stacks simulate the recursion.
-/
namespace Verif.Tree
variable {σ U X C R S : Type}

/-- The walk's part of a state. -/
def St.upd (st : St σ U X C R) (w : W σ U X C R) : St σ U X C R := { st with s := w.1, log := w.2 }

/-- A publication point to which there are so many references. -/
def entry (pp : Point U C) : Nat → Option (Pp U C)
  | 0 => none
  | n + 1 => some ⟨pp.lists, .loaded pp.crl, n + 1⟩

theorem deref_entry {st : St σ U X C R} {id n : Nat} {pp : Point U C} (h : st.heap[id]? = some (entry pp (n + 1))) :
    deref st id = some ⟨pp.lists, .loaded pp.crl, n + 1⟩ := by
  unfold deref
  rw [h]; rfl

theorem refput_entry {st : St σ U X C R} {id n : Nat} {pp : Point U C} (h : st.heap[id]? = some (entry pp (n + 1))) :
    refput st id = some { st with heap := st.heap.set id (entry pp n) } := by
  unfold refput
  rw [deref_entry h]
  cases n with
  | zero => rfl
  | succ n => rfl

theorem refget_entry {st : St σ U X C R} {id n : Nat} {pp : Point U C} (h : st.heap[id]? = some (entry pp (n + 1))) :
    refget st id = some { st with heap := st.heap.set id (entry pp (n + 2)) } := by
  unfold refget
  rw [deref_entry h]
  rfl

theorem lt_of_getElem? {α} {l : List α} {i : Nat} {a : α} (h : l[i]? = some a) : i < l.length := by
  rcases Nat.lt_or_ge i l.length with h1 | h1
  · exact h1
  · rw [List.getElem?_eq_none h1] at h; cases h

theorem set_same {α} {l : List α} {i : Nat} {a : α} (h : l[i]? = some a) : l.set i a = l := by
  have hi := lt_of_getElem? h
  rw [List.getElem?_eq_getElem hi] at h
  cases h
  exact List.set_getElem_self hi

theorem getElem?_set_same {α} {l : List α} {i : Nat} {a b : α} (h : l[i]? = some a) : (l.set i b)[i]? = some b := by
  rw [List.getElem?_set_self (lt_of_getElem? h)]

/-- Popping a certificate: the references are as before. -/
theorem deferPop_cert {st : St σ U X C R} {u : U} {id n : Nat} {pp : Point U C} {ds : List (Node U)}
    (h : st.heap[id]? = some (entry pp (n + 1))) :
    deferPop (.cert u id :: ds) st = some ({ st with defers := ds }, some (u, id)) := by
  unfold deferPop
  rw [refget_entry h]
  simp only [deferDestroy]
  rw [refput_entry (pp := pp) (n := n + 1) (getElem?_set_same h)]
  simp only [List.set_set, set_same h]

theorem deferLoop_sep {env : Env σ U X C R S} (m : Nat) {st : St σ U X C R} {ds : List (Node U)} {x : X} {xs : List X} {me : U × R} {ms : List (U × R)}
    (h1 : st.defers = .sep :: ds) (h2 : st.x509s = x :: xs) (h3 : st.metas = me :: ms) :
    deferLoop env m st = deferLoop env m { st with defers := ds, x509s := xs, metas := ms } := by
  cases m with
  | zero => rfl
  | succ m =>
    have : deferPop st.defers st = deferPop ds { st with defers := ds, x509s := xs, metas := ms } := by
      rw [h1]
      simp only [deferPop, x509Pop, h2, h3]
    unfold deferLoop
    rw [this]

/-- The stacks hold exactly these ancestors. -/
structure Holds (st : St σ U X C R) (chain : List (Anc U X R)) : Prop where
  x509s : st.x509s = chain.map Anc.x
  metas : st.metas = chain.map Anc.meta

/-- The pointer is to this publication point. -/
def Points (st : St σ U X C R) : Option Nat → Option (Point U C) → Prop
  | none, none => True
  | some id, some pp => ∃ n, st.heap[id]? = some (entry pp (n + 1))
  | _, _ => False

theorem rppCrl_points {env : Env σ U X C R S} {st : St σ U X C R} {p : Option Nat} {parent : Option (Point U C)} (h : Points st p parent) :
    rppCrl env st p = some (st, match parent with | none => .null | some pp => .crl pp.crl) := by
  cases p with
  | none =>
    cases parent with
    | none => rfl
    | some _ => exact h.elim
  | some id =>
    cases parent with
    | none => exact h.elim
    | some pp =>
      obtain ⟨n, h⟩ := h
      unfold rppCrl
      simp only [deref_entry h]

theorem parentCrl_points {st : St σ U X C R} {p : Option Nat} {parent : Option (Point U C)} (h : Points st p parent) :
    parentCrl st p = parent.map (fun p : Point U C => p.lists.crl) := by
  cases p with
  | none =>
    cases parent with
    | none => rfl
    | some _ => exact h.elim
  | some id =>
    cases parent with
    | none => exact h.elim
    | some pp =>
      obtain ⟨n, h⟩ := h
      simp [parentCrl, deref_entry h]

theorem points_isNone {st : St σ U X C R} {p : Option Nat} {parent : Option (Point U C)} (h : Points st p parent) :
    p.isNone = parent.isNone := by
  cases p <;> cases parent <;> first | rfl | exact h.elim

theorem roaTraverse_points {env : Env σ U X C R S} {st : St σ U X C R} {id : Nat} {pp : Point U C} {chain : List (Anc U X R)} {a : Anc U X R}
    (hp : Points st (some id) (some pp)) (hs : Holds st (a :: chain)) (u : U) :
    roaTraverse env st u id = some (st.upd (walkRoa env chain a pp (st.s, st.log) u)) := by
  obtain ⟨ds, xs, ms, heap, s0, log⟩ := st
  obtain ⟨hx, hm⟩ := hs
  simp only at hx hm
  subst hx hm
  unfold roaTraverse walkRoa
  simp only
  cases hd : env.roaDecode s0 u with
  | mk s b =>
    cases b with
    | false => rfl
    | true =>
      simp only
      have hp' : Points (σ := σ) ⟨ds, (a :: chain).map Anc.x, (a :: chain).map Anc.meta, heap, s, log⟩ (some id) (some pp) := hp
      rw [rppCrl_points hp']
      obtain ⟨n, hp⟩ := hp'
      simp only
      rw [deref_entry hp]
      rfl

theorem gbrTraverse_points {env : Env σ U X C R S} {st : St σ U X C R} {id : Nat} {pp : Point U C} {chain : List (Anc U X R)} {a : Anc U X R}
    (hp : Points st (some id) (some pp)) (hs : Holds st (a :: chain)) (u : U) :
    gbrTraverse env st u id = some (st.upd (walkGbr env chain a pp (st.s, st.log) u)) := by
  obtain ⟨ds, xs, ms, heap, s0, log⟩ := st
  obtain ⟨hx, hm⟩ := hs
  simp only at hx hm
  subst hx hm
  unfold gbrTraverse walkGbr
  simp only
  cases hd : env.gbrDecode s0 u with
  | mk s b =>
    cases b with
    | false => rfl
    | true =>
      simp only
      have hp' : Points (σ := σ) ⟨ds, (a :: chain).map Anc.x, (a :: chain).map Anc.meta, heap, s, log⟩ (some id) (some pp) := hp
      rw [rppCrl_points hp']
      obtain ⟨n, hp⟩ := hp'
      simp only
      rw [deref_entry hp]
      rfl

theorem forEach_roas {env : Env σ U X C R S} {id : Nat} {pp : Point U C} {chain : List (Anc U X R)} {a : Anc U X R} :
    ∀ (us : List U) (st : St σ U X C R), Points st (some id) (some pp) → Holds st (a :: chain) →
    forEach (fun st u => roaTraverse env st u id) st us = some (st.upd (us.foldl (walkRoa env chain a pp) (st.s, st.log))) := by
  intro us
  induction us with
  | nil => intro st _ _; rfl
  | cons u us ih =>
    intro st hp hs
    unfold forEach
    rw [roaTraverse_points hp hs]
    simp only
    exact ih (st.upd _) hp ⟨hs.1, hs.2⟩

theorem forEach_gbrs {env : Env σ U X C R S} {id : Nat} {pp : Point U C} {chain : List (Anc U X R)} {a : Anc U X R} :
    ∀ (us : List U) (st : St σ U X C R), Points st (some id) (some pp) → Holds st (a :: chain) →
    forEach (fun st u => gbrTraverse env st u id) st us = some (st.upd (us.foldl (walkGbr env chain a pp) (st.s, st.log))) := by
  intro us
  induction us with
  | nil => intro st _ _; rfl
  | cons u us ih =>
    intro st hp hs
    unfold forEach
    rw [gbrTraverse_points hp hs]
    simp only
    exact ih (st.upd _) hp ⟨hs.1, hs.2⟩

theorem pushAll_entry {id : Nat} {pp : Point U C} : ∀ (us : List U) (n : Nat) (st : St σ U X C R), st.heap[id]? = some (entry pp (n + 1)) →
    pushAll st id us = some { st with defers := us.reverse.map (.cert · id) ++ st.defers, heap := st.heap.set id (entry pp (n + 1 + us.length)) } := by
  intro us
  induction us with
  | nil =>
    intro n st h
    simp only [pushAll, List.reverse_nil, List.map_nil, List.nil_append, List.length_nil, Nat.add_zero, set_same h]
  | cons u us ih =>
    intro n st h
    unfold pushAll deferPush
    rw [refget_entry h]
    simp only
    rw [ih (n + 1) _ (getElem?_set_same h)]
    simp only [List.set_set, List.reverse_cons, List.map_append, List.map_cons, List.map_nil, List.append_assoc, List.cons_append,
      List.nil_append, List.length_cons]
    rw [show n + 1 + 1 + us.length = n + 1 + (us.length + 1) by omega]

theorem rppTraverse_entry {env : Env σ U X C R S} {st : St σ U X C R} {id : Nat} {pp : Point U C} {chain : List (Anc U X R)} {a : Anc U X R}
    (hp : st.heap[id]? = some (entry pp 1)) (hs : Holds st (a :: chain)) :
    rppTraverse env st id = some (({ st with
      defers := pp.lists.certs.map (.cert · id) ++ st.defers
      heap := st.heap.set id (entry pp (0 + 1 + pp.lists.certs.length)) } : St σ U X C R).upd (walkFiles env chain a pp (st.s, st.log))) := by
  unfold rppTraverse
  simp only [deref_entry hp]
  rw [pushAll_entry _ 0 st hp]
  simp only [List.reverse_reverse, List.length_reverse]
  have hp2 : ∀ {s l d}, Points (σ := σ) (X := X) (R := R) ⟨d, st.x509s, st.metas, st.heap.set id (entry pp (0 + 1 + pp.lists.certs.length)), s, l⟩ (some id) (some pp) := by
    intro s l d
    refine ⟨pp.lists.certs.length, ?_⟩
    show (st.heap.set id _)[id]? = _
    rw [getElem?_set_same hp]
    congr 2
    omega
  rw [forEach_roas _ _ hp2 ⟨hs.1, hs.2⟩]
  exact forEach_gbrs _ (St.upd _ _) hp2 ⟨hs.1, hs.2⟩


/-- The pointer to a new object. -/
theorem getElem?_new {α} (l : List α) (a : α) : (l ++ [a])[l.length]? = some a := by simp

theorem set_new {α} (l : List α) (a b : α) : (l ++ [a]).set l.length b = l ++ [b] := by
  rw [List.set_append_right _ _ (Nat.le_refl _)]; simp

/-- A manifest, after its certification authority's certificate `a` was stacked. -/
theorem handleManifest_spec {env : Env σ U X C R S} {st : St σ U X C R} {chain : List (Anc U X R)} {a : Anc U X R}
    (hs : Holds st (a :: chain)) (sia : S) (d : U) :
    match judgeMft env chain a sia d st.s with
    | (s, .accepted b pp) => b = a ∧ handleManifest env st sia d = some ({ st with s := s, heap := st.heap ++ [entry pp 1] }, some st.heap.length)
    | (s, _) => ∃ k, handleManifest env st sia d = some ({ st with s := s, heap := st.heap ++ List.replicate k none }, none) := by
  obtain ⟨ds, xs, ms, heap, s0, log⟩ := st
  obtain ⟨hx, hm⟩ := hs
  simp only at hx hm
  subst hx hm
  unfold handleManifest judgeMft
  simp only
  cases h1 : env.mftDecode s0 sia d with
  | mk s l =>
    cases l with
    | none => exact ⟨0, by simp⟩
    | some lists =>
      simp only [rppCrl, deref, getElem?_new, Option.join_some]
      cases h2 : env.crlLoad s lists.crl with
      | mk s c =>
        cases c with
        | none =>
          refine ⟨1, ?_⟩
          simp only [refput, deref, set_new, getElem?_new, Option.join_some]
          rfl
        | some c =>
          simp only [List.map_cons, Anc.meta]
          cases h3 : env.mftOk s sia d lists c (a.x :: chain.map Anc.x) a.r with
          | mk s b =>
            cases b with
            | false =>
              refine ⟨1, ?_⟩
              simp only [refput, deref, set_new, getElem?_new, Option.join_some]
              rfl
            | true =>
              refine ⟨rfl, ?_⟩
              simp only [set_new]
              rfl

theorem judgeMft_ne_ignored (env : Env σ U X C R S) (chain : List (Anc U X R)) (a : Anc U X R) (sia : S) (d : U) (s : σ) :
    (judgeMft env chain a sia d s).2 ≠ .ignored := by
  unfold judgeMft
  repeat' split
  all_goals exact fun h => by cases h

/-- What is left of a traversal that was given up. -/
def Left (st st' : St σ U X C R) (w : W σ U X C R) : Prop :=
  ∃ k, st' = { st with heap := st.heap ++ List.replicate k none, s := w.1, log := w.2 }

/-- What is there after an accepted certificate. -/
def Entered (st : St σ U X C R) (chain : List (Anc U X R)) (a : Anc U X R) (pp : Point U C) (w : W σ U X C R) : St σ U X C R :=
  ⟨pp.lists.certs.map (.cert · st.heap.length) ++ .sep :: st.defers, (a :: chain).map Anc.x, (a :: chain).map Anc.meta,
    st.heap ++ [entry pp pp.lists.certs.length], w.1, w.2⟩

/-- The program did what the verdict says. -/
def Sim (env : Env σ U X C R S) (st : St σ U X C R) (chain : List (Anc U X R)) (j : σ × Verdict U X C R) (log : List (Event U X C R))
    (out : Option (St σ U X C R × Bool)) : Prop :=
  match j with
  | (s, .rejected) => ∃ st', out = some (st', false) ∧ Left st st' (s, log)
  | (s, .ignored) => ∃ st', out = some (st', true) ∧ Left st st' (s, log)
  | (s, .accepted a pp) => out = some (Entered st chain a pp (walkFiles env chain a pp (s, log)), true)

theorem traverseCa_spec {env : Env σ U X C R S} {st : St σ U X C R} {chain : List (Anc U X R)} (hs : Holds st chain)
    (u : U) (x : X) (t : CType) (sia : S) (d : U) :
    Sim env st chain (match env.resources st.s x sia t (chain.head?.map Anc.r) with
      | (s, none) => (s, Verdict.rejected)
      | (s, some r) => judgeMft env chain ⟨x, u, r⟩ sia d s) st.log (traverseCa env st u x t sia d) := by
  obtain ⟨ds, xs, ms, heap, s0, log⟩ := st
  obtain ⟨hx, hm⟩ := hs
  simp only at hx hm
  subst hx hm
  unfold traverseCa x509Push
  have hh : (chain.map Anc.meta).head?.map (·.2) = chain.head?.map Anc.r := by
    cases chain <;> rfl
  simp only [hh]
  unfold Sim
  cases h1 : env.resources s0 x sia t (chain.head?.map Anc.r) with
  | mk s r =>
    cases r with
    | none => exact ⟨_, rfl, 0, by simp⟩
    | some r =>
      simp only
      have h2 := handleManifest_spec (env := env) (st := ⟨.sep :: ds, x :: chain.map Anc.x, (u, r) :: chain.map Anc.meta, heap, s, log⟩)
        (chain := chain) (a := ⟨x, u, r⟩) ⟨rfl, rfl⟩ sia d
      simp only at h2
      cases h3 : judgeMft env chain ⟨x, u, r⟩ sia d s with
      | mk s' v =>
        rw [h3] at h2
        cases v with
        | rejected =>
          simp only at h2
          obtain ⟨k, h2⟩ := h2
          rw [h2]
          simp only
          exact ⟨_, rfl, k, rfl⟩
        | ignored => exact absurd (congrArg Prod.snd h3) (judgeMft_ne_ignored env chain _ sia d s)
        | accepted a pp =>
          simp only at h2
          obtain ⟨ha, h2⟩ := h2
          subst ha
          rw [h2]
          simp only
          rw [rppTraverse_entry (pp := pp) (chain := chain) (a := ⟨x, u, r⟩) (getElem?_new _ _) ⟨rfl, rfl⟩]
          simp only [set_new]
          rw [refput_entry (pp := pp) (n := pp.lists.certs.length)]
          · simp only [St.upd, set_new, Option.map_some, Entered]
            rfl
          · show (heap ++ [_])[heap.length]? = _
            rw [getElem?_new]
            congr 2
            omega

theorem sim_reject {env : Env σ U X C R S} {st : St σ U X C R} {chain : List (Anc U X R)} (s : σ) :
    Sim env st chain (s, .rejected) st.log (some ({ st with s := s }, false)) := ⟨_, rfl, 0, by simp⟩

theorem sim_ignore {env : Env σ U X C R S} {st : St σ U X C R} {chain : List (Anc U X R)} (s : σ) :
    Sim env st chain (s, .ignored) st.log (some ({ st with s := s }, true)) := ⟨_, rfl, 0, by simp⟩

theorem traverseAuthority_spec {env : Env σ U X C R S} {st : St σ U X C R} {chain : List (Anc U X R)} {p : Option Nat}
    {parent : Option (Point U C)} (hs : Holds st chain) (hp : Points st p parent) (u : U) (x : X) (t : CType) :
    Sim env st chain (judgeCa env chain parent u x t st.s) st.log (traverseAuthority env st p u x t) := by
  unfold traverseAuthority judgeCa
  rw [parentCrl_points hp]
  cases h3 : env.profileOk st.s x t with
  | mk s b =>
    cases b with
    | false => exact sim_reject s
    | true =>
      simp only
      cases h4 : env.extensions s x t (parent.map (fun p : Point U C => p.lists.crl)) with
      | mk s o =>
        cases o with
        | none => exact sim_reject s
        | some sia =>
          simp only
          cases h5 : env.download s sia with
          | mk s o =>
            cases o with
            | none => exact sim_reject s
            | some d => exact traverseCa_spec (st := { st with s := s }) ⟨hs.1, hs.2⟩ u x t sia d

theorem traverseFile_spec {env : Env σ U X C R S} {st : St σ U X C R} {chain : List (Anc U X R)} {p : Option Nat}
    {parent : Option (Point U C)} (hs : Holds st chain) (hp : Points st p parent) (u : U) :
    Sim env st chain (judge env chain parent u st.s) st.log (traverseFile env st p (parent.map Point.crl) u) := by
  have hcrl : ∀ (s : σ) (x : X), validateChain env s x (parent.map Point.crl) st.x509s = judgeChain env chain parent x s := by
    intro s x
    unfold validateChain judgeChain
    cases parent with
    | none => rfl
    | some p => simp only [Option.map_some, hs.x509s]
  unfold traverseFile judge
  cases h1 : env.load st.s u with
  | mk s x =>
    cases x with
    | none => exact sim_reject s
    | some x =>
      simp only
      rw [hcrl, points_isNone hp]
      cases h2 : judgeChain env chain parent x s with
      | mk s b =>
        cases b with
        | false => exact sim_reject s
        | true =>
          simp only
          cases env.certType x parent.isNone with
          | none => exact sim_reject s
          | some t =>
            cases t with
            | bgpsec => exact sim_ignore s
            | ee => exact sim_ignore s
            | ta => exact traverseAuthority_spec (st := { st with s := s }) ⟨hs.1, hs.2⟩ hp u x .ta
            | ca => exact traverseAuthority_spec (st := { st with s := s }) ⟨hs.1, hs.2⟩ hp u x .ca

theorem certTraverse_spec {env : Env σ U X C R S} {st : St σ U X C R} {chain : List (Anc U X R)} {p : Option Nat}
    {parent : Option (Point U C)} (hs : Holds st chain) (hp : Points st p parent) (hd : chain.length < env.maxDepth) (u : U) :
    Sim env st chain (judge env chain parent u st.s) (seen chain (parent.map Point.crl) u :: st.log) (certTraverse env st p u) := by
  have key := traverseFile_spec (env := env) (st := { st with log := seen chain (parent.map Point.crl) u :: st.log }) ⟨hs.1, hs.2⟩ hp u
  unfold certTraverse
  rw [if_neg (by rw [hs.x509s, List.length_map]; omega), rppCrl_points hp]
  unfold seen at *
  cases parent with
  | none => rw [← hs.x509s, ← hs.metas] at *; exact key
  | some p => rw [← hs.x509s, ← hs.metas] at *; exact key

theorem certTraverse_deep {env : Env σ U X C R S} {st : St σ U X C R} {chain : List (Anc U X R)} {p : Option Nat}
    (hs : Holds st chain) (hd : env.maxDepth ≤ chain.length) (u : U) : certTraverse env st p u = some (st, false) := by
  unfold certTraverse
  rw [if_pos (by rw [hs.x509s, List.length_map]; omega)]

/-- The certificates of a publication point, one after the other. The program's loop does what the walk does, and gets back to where it
was before: the same stacks, and a publication point that was freed. -/
theorem children {env : Env σ U X C R S} : ∀ (n : Nat) (chain : List (Anc U X R)), chain.length + n = env.maxDepth →
    ∀ (vs : List U) (pp : Point U C) (id : Nat) (st : St σ U X C R) (ds : List (Node U)),
    st.defers = vs.map (.cert · id) ++ ds → Holds st chain → st.heap[id]? = some (entry pp vs.length) →
    ∃ k j, ∀ m, deferLoop env (k + m) st = deferLoop env m
      (({ st with defers := ds, heap := st.heap.set id none ++ List.replicate j none } : St σ U X C R).upd
        (vs.foldl (fun w v => (walk env n chain (some pp) v w).1) (st.s, st.log))) := by
  intro n
  induction n with
  | zero =>
    intro chain hn vs
    induction vs with
    | nil =>
      intro pp id st ds hd hs hh
      refine ⟨0, 0, fun m => ?_⟩
      obtain ⟨defers, xs, ms, heap, s, log⟩ := st
      simp only [List.map_nil, List.nil_append] at hd
      subst hd
      simp only [List.length_nil] at hh
      have := set_same (a := (none : Option (Pp U C))) hh
      simp [St.upd, this]
    | cons v vs ih =>
      intro pp id st ds hd hs hh
      obtain ⟨defers, xs, ms, heap, s, log⟩ := st
      simp only at hd hh
      subst hd
      obtain ⟨k, j, e⟩ := ih pp id ⟨vs.map (.cert · id) ++ ds, xs, ms, heap.set id (entry pp vs.length), s, log⟩ ds rfl ⟨hs.1, hs.2⟩
        (getElem?_set_same hh)
      refine ⟨k + 1, j, fun m => ?_⟩
      rw [show k + 1 + m = (k + m) + 1 by omega]
      conv => lhs; unfold deferLoop
      simp only [List.map_cons, List.cons_append]
      rw [deferPop_cert (pp := pp) (n := vs.length) hh]
      simp only
      rw [certTraverse_deep (env := env) (chain := chain) (st := ⟨vs.map (Node.cert · id) ++ ds, xs, ms, heap, s, log⟩) ⟨hs.1, hs.2⟩ (by omega)]
      simp only
      rw [refput_entry (pp := pp) (n := vs.length) hh]
      simp only
      rw [e m]
      simp only [List.set_set]
      rfl
  | succ n ihn =>
    intro chain hn vs
    induction vs with
    | nil =>
      intro pp id st ds hd hs hh
      refine ⟨0, 0, fun m => ?_⟩
      obtain ⟨defers, xs, ms, heap, s, log⟩ := st
      simp only [List.map_nil, List.nil_append] at hd
      subst hd
      simp only [List.length_nil] at hh
      have := set_same (a := (none : Option (Pp U C))) hh
      simp [St.upd, this]
    | cons v vs ih =>
      intro pp id st ds hd hs hh
      obtain ⟨defers, xs, ms, heap, s, log⟩ := st
      obtain ⟨hx, hm⟩ := hs
      simp only at hd hh hx hm
      subst hd hx hm
      have hid := lt_of_getElem? hh
      have spec := certTraverse_spec (env := env) (st := ⟨vs.map (.cert · id) ++ ds, chain.map Anc.x, chain.map Anc.meta, heap, s, log⟩)
        (p := some id) (parent := some pp) ⟨rfl, rfl⟩ ⟨vs.length, hh⟩ (by omega) v
      have hpop := deferPop_cert (pp := pp) (n := vs.length) (ds := vs.map (.cert · id) ++ ds) (u := v)
        (st := ⟨.cert v id :: (vs.map (.cert · id) ++ ds), chain.map Anc.x, chain.map Anc.meta, heap, s, log⟩) hh
      simp only [List.map_cons, List.cons_append]
      -- after this certificate (and the tree below it), the others
      have fin : ∀ (w : W σ U X C R) (j : Nat), (walk env (n + 1) chain (some pp) v (s, log)).1 = w →
          ∃ k j', ∀ m, deferLoop env (k + m) ⟨vs.map (.cert · id) ++ ds, chain.map Anc.x, chain.map Anc.meta,
            heap.set id (entry pp vs.length) ++ List.replicate j none, w.1, w.2⟩ =
          deferLoop env m ((⟨ds, chain.map Anc.x, chain.map Anc.meta, heap.set id none ++ List.replicate j' none, s, log⟩ : St σ U X C R).upd
            ((v :: vs).foldl (fun w v => (walk env (n + 1) chain (some pp) v w).1) (s, log))) := by
        intro w j hw
        obtain ⟨k, j', e⟩ := ih pp id ⟨vs.map (.cert · id) ++ ds, chain.map Anc.x, chain.map Anc.meta,
          heap.set id (entry pp vs.length) ++ List.replicate j none, w.1, w.2⟩ ds rfl ⟨rfl, rfl⟩
          (by rw [List.getElem?_append_left (by simpa using hid)]; exact getElem?_set_same hh)
        refine ⟨k, j + j', fun m => ?_⟩
        rw [e m]
        simp only [List.foldl_cons, hw, St.upd]
        rw [List.set_append_left _ _ (by simpa using hid), List.set_set, List.append_assoc, List.replicate_append_replicate]
      cases hj : judge env chain (some pp) v s with
      | mk s' verdict =>
        simp only at spec
        rw [hj] at spec
        have hw : (walk env (n + 1) chain (some pp) v (s, log)).1 = match verdict with
            | .rejected => (s', seen chain (some pp.crl) v :: log)
            | .ignored => (s', seen chain (some pp.crl) v :: log)
            | .accepted a pp' => pp'.lists.certs.foldl (fun w v => (walk env n (a :: chain) (some pp') v w).1)
                (walkFiles env chain a pp' (s', seen chain (some pp.crl) v :: log)) := by
          simp only [walk, hj]
          cases verdict <;> rfl
        cases verdict with
        | rejected =>
          obtain ⟨st', e1, i, e2⟩ := spec
          obtain ⟨k, j', e⟩ := fin _ i hw
          refine ⟨k + 1, j', fun m => ?_⟩
          rw [show k + 1 + m = (k + m) + 1 by omega]
          conv => lhs; unfold deferLoop
          simp only
          rw [hpop]
          simp only
          rw [e1, e2]
          simp only
          rw [refput_entry (pp := pp) (n := vs.length) (by
            show (heap ++ _)[id]? = _
            rw [List.getElem?_append_left hid]; exact hh)]
          simp only
          rw [List.set_append_left _ _ hid]
          exact e m
        | ignored =>
          obtain ⟨st', e1, i, e2⟩ := spec
          obtain ⟨k, j', e⟩ := fin _ i hw
          refine ⟨k + 1, j', fun m => ?_⟩
          rw [show k + 1 + m = (k + m) + 1 by omega]
          conv => lhs; unfold deferLoop
          simp only
          rw [hpop]
          simp only
          rw [e1, e2]
          simp only
          rw [refput_entry (pp := pp) (n := vs.length) (by
            show (heap ++ _)[id]? = _
            rw [List.getElem?_append_left hid]; exact hh)]
          simp only
          rw [List.set_append_left _ _ hid]
          exact e m
        | accepted a pp' =>
          simp only [Sim] at spec
          obtain ⟨k1, j1, e1⟩ := ihn (a :: chain) (by simp only [List.length_cons]; omega) pp'.lists.certs pp' heap.length
            ⟨pp'.lists.certs.map (.cert · heap.length) ++ .sep :: (vs.map (.cert · id) ++ ds), (a :: chain).map Anc.x, (a :: chain).map Anc.meta,
              heap.set id (entry pp vs.length) ++ [entry pp' pp'.lists.certs.length],
              (walkFiles env chain a pp' (s', seen chain (some pp.crl) v :: log)).1,
              (walkFiles env chain a pp' (s', seen chain (some pp.crl) v :: log)).2⟩ _ rfl ⟨rfl, rfl⟩
            (by simp)
          obtain ⟨k, j', e⟩ := fin _ (1 + j1) hw
          refine ⟨k + k1 + 1, j', fun m => ?_⟩
          rw [show k + k1 + 1 + m = (k1 + (k + m)) + 1 by omega]
          conv => lhs; unfold deferLoop
          simp only
          rw [hpop]
          simp only
          rw [spec]
          simp only [Entered]
          rw [refput_entry (pp := pp) (n := vs.length) (by
            show (heap ++ _)[id]? = _
            rw [List.getElem?_append_left hid]; exact hh)]
          simp only
          rw [List.set_append_left _ _ hid]
          rw [Option.map_some, e1 (k + m)]
          rw [deferLoop_sep (st := St.upd _ _) (k + m) rfl rfl rfl]
          rw [← e m]
          congr 1
          simp only [St.upd, St.mk.injEq, true_and, and_true]
          rw [List.set_append_right _ _ (by simp)]
          rw [List.length_set, Nat.sub_self, Nat.add_comm 1 j1, List.replicate_succ]
          simp

end Verif.Tree
