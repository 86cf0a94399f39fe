import Verif.Tree.Lemmas
/-
C51, C52, C90, C91: the traversal.
-/
namespace Verif.Tree
variable {σ U X C R S : Type}

/-- What `handle_tal_uri` returns for a root certificate. -/
def talRes (env : Env σ U X C R S) (s : σ) (ok : Bool) : TalRes :=
  if ok then .ok else if env.keyState s = .invalid then .next else .fatal

/-- **C51.** The traversal of any tree, even one with loops, ends; it does what the recursive walk does, in the same order, with exactly
the ancestors of each file; and it ends with empty stacks and without publication points. -/
theorem C51_walk (env : Env σ U X C R S) (s : σ) (root : U) (hroot : env.isCert root = true) :
    ∃ N k, ∀ fuel, N ≤ fuel → handleTalUri env fuel s root =
      .done (⟨[], [], [], List.replicate k none, (walk env env.maxDepth [] none root (s, [])).1.1, (walk env env.maxDepth [] none root (s, [])).1.2⟩,
        talRes env (walk env env.maxDepth [] none root (s, [])).1.1 (walk env env.maxDepth [] none root (s, [])).2) := by
  unfold handleTalUri
  simp only [hroot]
  cases hd : env.maxDepth with
  | zero =>
    refine ⟨0, 0, fun fuel _ => ?_⟩
    rw [certTraverse_deep (chain := []) ⟨rfl, rfl⟩ (by rw [hd]; exact Nat.zero_le _)]
    rfl
  | succ n =>
    have spec := certTraverse_spec (env := env) (st := ⟨[], [], [], [], s, []⟩) (chain := []) (p := none) (parent := none)
      ⟨rfl, rfl⟩ trivial (by rw [hd]; exact Nat.succ_pos _) root
    simp only [walk] at *
    cases hj : judge env [] none root s with
    | mk s' verdict =>
      rw [hj] at spec
      cases verdict with
      | rejected =>
        obtain ⟨st', e1, k, e2⟩ := spec
        refine ⟨0, k, fun fuel _ => ?_⟩
        rw [e1, e2]
        rfl
      | ignored =>
        obtain ⟨st', e1, k, e2⟩ := spec
        refine ⟨1, k, fun fuel hf => ?_⟩
        rw [e1, e2]
        obtain ⟨m, rfl⟩ : ∃ m, fuel = m + 1 := ⟨fuel - 1, by omega⟩
        rfl
      | accepted a pp =>
        simp only [Sim] at spec
        obtain ⟨k, j, e⟩ := children (env := env) n [a] (by rw [hd]; simp; omega) pp.lists.certs pp 0
          ⟨pp.lists.certs.map (.cert · 0) ++ [.sep], [a].map Anc.x, [a].map Anc.meta, [entry pp pp.lists.certs.length],
            (walkFiles env [] a pp (s', [seen [] none root])).1, (walkFiles env [] a pp (s', [seen [] none root])).2⟩
          [.sep] rfl ⟨rfl, rfl⟩ rfl
        refine ⟨k + 1, j + 1, fun fuel hf => ?_⟩
        obtain ⟨m, rfl⟩ : ∃ m, fuel = k + (m + 1) := ⟨fuel - k - 1, by omega⟩
        rw [spec]
        simp only [Entered, List.length_nil, List.nil_append]
        have e' := e (m + 1)
        rw [deferLoop_sep (st := St.upd _ _) (m + 1) rfl rfl rfl] at e'
        simp only [Option.map_none]
        rw [e']
        simp only [deferLoop, deferPop, St.upd, destroyStack, talRes, Bool.true_eq_false, if_false, if_true, List.set_cons_zero]
        rfl

/-- What is not a certificate is not looked at. -/
theorem C51_not_cert (env : Env σ U X C R S) (fuel : Nat) (s : σ) (root : U) (h : env.isCert root = false) :
    handleTalUri env fuel s root = .done (⟨[], [], [], [], s, []⟩, .next) := by
  unfold handleTalUri
  simp only [h]
  rfl

theorem deferLoop_mono {env : Env σ U X C R S} (m : Nat) : ∀ (n : Nat) (st : St σ U X C R), deferLoop env n st ≠ .more →
    deferLoop env (n + m) st = deferLoop env n st := by
  intro n
  induction n with
  | zero => intro st h; exact absurd rfl h
  | succ n ih =>
    intro st h
    rw [show n + 1 + m = (n + m) + 1 by omega]
    unfold deferLoop at h ⊢
    cases h1 : deferPop st.defers st with
    | none => rfl
    | some x =>
      obtain ⟨st1, o⟩ := x
      cases o with
      | none => rfl
      | some x =>
        obtain ⟨u, id⟩ := x
        rw [h1] at h
        simp only at h ⊢
        cases h2 : certTraverse env st1 (some id) u with
        | none => rfl
        | some x =>
          obtain ⟨st2, b⟩ := x
          rw [h2] at h
          simp only at h ⊢
          cases h3 : refput st2 id with
          | none => rfl
          | some st3 =>
            rw [h3] at h
            exact ih st3 h

theorem handleTalUri_mono {env : Env σ U X C R S} (m : Nat) {n : Nat} {s : σ} {root : U} (h : handleTalUri env n s root ≠ .more) :
    handleTalUri env (n + m) s root = handleTalUri env n s root := by
  unfold handleTalUri at h ⊢
  by_cases hr : env.isCert root = false
  · simp only [hr, if_true]
  · simp only [hr, if_false] at h ⊢
    cases h1 : certTraverse env ⟨[], [], [], [], s, []⟩ none root with
    | none => rfl
    | some x =>
      obtain ⟨st, b⟩ := x
      rw [h1] at h
      cases b with
      | false => rfl
      | true =>
        simp only at h ⊢
        rw [deferLoop_mono m n st (fun hc => by rw [hc] at h; exact h rfl)]

/-- **C90.** However long it runs, the traversal neither aborts nor uses a publication point that was freed. (That all of them are freed
in the end is part of `C51_walk`.) -/
theorem C90_safe (env : Env σ U X C R S) (fuel : Nat) (s : σ) (root : U) : handleTalUri env fuel s root ≠ .crash := by
  by_cases hroot : env.isCert root = true
  · obtain ⟨N, k, h⟩ := C51_walk env s root hroot
    intro hc
    have := h (fuel + N) (by omega)
    rw [handleTalUri_mono N (by rw [hc]; exact fun h => by cases h), hc] at this
    cases this
  · rw [C51_not_cert env fuel s root (by simpa using hroot)]
    exact fun h => by cases h

/-- Something holds for each file that the walk looks at, if it holds for the files of each certificate. -/
theorem walk_log {env : Env σ U X C R S} {root : U} : ∀ (n : Nat) (chain : List (Anc U X R)) (parent : Option (Point U C)) (u : U) (w : W σ U X C R),
    Under env root chain parent u → ∀ e ∈ (walk env n chain parent u w).1.2, e ∈ w.2 ∨ (Fair env root e ∧ e.depth ≤ chain.length + n) := by
  have roas : ∀ (chain : List (Anc U X R)) (a : Anc U X R) (pp : Point U C) (us : List U) (w : W σ U X C R) (e : Event U X C R),
      e ∈ (us.foldl (walkRoa env chain a pp) w).2 → e ∈ w.2 ∨
        ∃ v ∈ us, e = .roa v ((a :: chain).map Anc.x) ((a :: chain).map Anc.meta) pp.crl := by
    intro chain a pp us
    induction us with
    | nil => intro w e h; exact .inl h
    | cons u us ih =>
      intro w e h
      rcases ih _ e h with h | ⟨v, hv, rfl⟩
      · unfold walkRoa at h
        split at h
        · exact .inl h
        · rcases List.mem_cons.1 h with rfl | h
          · exact .inr ⟨u, List.mem_cons_self .., rfl⟩
          · exact .inl h
      · exact .inr ⟨v, List.mem_cons_of_mem _ hv, rfl⟩
  have gbrs : ∀ (chain : List (Anc U X R)) (a : Anc U X R) (pp : Point U C) (us : List U) (w : W σ U X C R) (e : Event U X C R),
      e ∈ (us.foldl (walkGbr env chain a pp) w).2 → e ∈ w.2 ∨
        ∃ v ∈ us, e = .gbr v ((a :: chain).map Anc.x) ((a :: chain).map Anc.meta) pp.crl := by
    intro chain a pp us
    induction us with
    | nil => intro w e h; exact .inl h
    | cons u us ih =>
      intro w e h
      rcases ih _ e h with h | ⟨v, hv, rfl⟩
      · unfold walkGbr at h
        split at h
        · exact .inl h
        · rcases List.mem_cons.1 h with rfl | h
          · exact .inr ⟨u, List.mem_cons_self .., rfl⟩
          · exact .inl h
      · exact .inr ⟨v, List.mem_cons_of_mem _ hv, rfl⟩
  intro n
  induction n with
  | zero => intro chain parent u w _ e h; exact .inl h
  | succ n ih =>
    intro chain parent u w hu e h
    have own : ∀ {l : List (Event U X C R)}, e ∈ seen chain (parent.map Point.crl) u :: l → e ∈ l ∨ (Fair env root e ∧ e.depth ≤ chain.length + (n + 1)) := by
      intro l h
      rcases List.mem_cons.1 h with rfl | h
      · refine .inr ⟨.cert hu, ?_⟩
        simp only [seen, Event.depth, List.length_map]
        omega
      · exact .inl h
    unfold walk at h
    cases hj : judge env chain parent u w.1 with
    | mk s verdict =>
      rw [hj] at h
      cases verdict with
      | rejected => exact own h
      | ignored => exact own h
      | accepted a pp =>
        simp only at h
        have certs : ∀ (us : List U) (w : W σ U X C R), (∀ v ∈ us, v ∈ pp.lists.certs) →
            e ∈ (us.foldl (fun w v => (walk env n (a :: chain) (some pp) v w).1) w).2 → e ∈ w.2 ∨ (Fair env root e ∧ e.depth ≤ chain.length + (n + 1)) := by
          intro us
          induction us with
          | nil => intro w _ h; exact .inl h
          | cons v us ih2 =>
            intro w hus h
            rcases ih2 _ (fun v hv => hus v (List.mem_cons_of_mem _ hv)) h with h | h
            · rcases ih _ _ _ _ (.listed hu hj (hus v (List.mem_cons_self ..))) e h with h | ⟨h1, h2⟩
              · exact .inl h
              · refine .inr ⟨h1, ?_⟩
                simp only [List.length_cons] at h2
                omega
            · exact .inr h
        rcases certs _ _ (fun v hv => hv) h with h | h
        · unfold walkFiles at h
          rcases gbrs _ _ _ _ _ _ h with h | ⟨v, hv, rfl⟩
          · rcases roas _ _ _ _ _ _ h with h | ⟨v, hv, rfl⟩
            · exact own h
            · refine .inr ⟨.roa hu hj hv, ?_⟩
              simp only [Event.depth, List.length_map, List.length_cons]
              omega
          · refine .inr ⟨.gbr hu hj hv, ?_⟩
            simp only [Event.depth, List.length_map, List.length_cons]
            omega
        · exact .inr h

/-- **C51, the ancestors.** Every file that is looked at, is so with exactly its ancestors in the certificate stack, and the
CRL of the publication point that lists it. -/
theorem C51_ancestors (env : Env σ U X C R S) {fuel : Nat} {s : σ} {root : U} {st : St σ U X C R} {r : TalRes}
    (h : handleTalUri env fuel s root = .done (st, r)) : ∀ e ∈ st.log, Fair env root e ∧ e.depth ≤ env.maxDepth := by
  by_cases hroot : env.isCert root = true
  · obtain ⟨N, k, hN⟩ := C51_walk env s root hroot
    have e1 := hN (fuel + N) (by omega)
    have : st.log = (walk env env.maxDepth [] none root (s, [])).1.2 := by
      have e2 : handleTalUri env (fuel + N) s root = .done (st, r) := by
        rw [handleTalUri_mono N (by rw [h]; exact fun h => by cases h), h]
      rw [e1] at e2
      cases e2
      rfl
    intro e he
    rw [this] at he
    rcases walk_log _ _ _ _ _ .root e he with h | ⟨h1, h2⟩
    · cases h
    · exact ⟨h1, by simpa using h2⟩
  · rw [C51_not_cert env fuel s root (by simpa using hroot)] at h
    cases h
    intro e he
    cases he

/-- **C52.** A certificate is only looked at if it has less ancestors than the configured maximum. -/
theorem C52_depth (env : Env σ U X C R S) {fuel : Nat} {s : σ} {root : U} {st : St σ U X C R} {r : TalRes}
    (h : handleTalUri env fuel s root = .done (st, r)) {u : U} {xs : List X} {ms : List (U × R)} {crl : Option C}
    (he : .cert u xs ms crl ∈ st.log) : xs.length < env.maxDepth := (C51_ancestors env h _ he).2

/-- **C52, termination.** So the traversal ends, whatever the certificates list. -/
theorem C52_ends (env : Env σ U X C R S) (s : σ) (root : U) : ∃ N st r, ∀ fuel, N ≤ fuel → handleTalUri env fuel s root = .done (st, r) := by
  by_cases hroot : env.isCert root = true
  · obtain ⟨N, k, h⟩ := C51_walk env s root hroot
    exact ⟨N, _, _, h⟩
  · exact ⟨0, _, _, fun fuel _ => C51_not_cert env fuel s root (by simpa using hroot)⟩

/-- **C90, no leaks.** At the end, the stacks are empty and all of the publication points were freed. -/
theorem C90_freed (env : Env σ U X C R S) {fuel : Nat} {s : σ} {root : U} {st : St σ U X C R} {r : TalRes}
    (h : handleTalUri env fuel s root = .done (st, r)) : st.defers = [] ∧ st.x509s = [] ∧ st.metas = [] ∧ ∀ p ∈ st.heap, p = none := by
  by_cases hroot : env.isCert root = true
  · obtain ⟨N, k, hN⟩ := C51_walk env s root hroot
    have e1 := hN (fuel + N) (by omega)
    rw [handleTalUri_mono N (by rw [h]; exact fun h => by cases h), h] at e1
    cases e1
    exact ⟨rfl, rfl, rfl, fun p hp => List.eq_of_mem_replicate hp⟩
  · rw [C51_not_cert env fuel s root (by simpa using hroot)] at h
    cases h
    exact ⟨rfl, rfl, rfl, fun p hp => by cases hp⟩

/-- A publication point that was accepted has the CRL that its manifest lists. -/
theorem judge_crl {env : Env σ U X C R S} {chain : List (Anc U X R)} {parent : Option (Point U C)} {u : U} {s s' : σ} {a : Anc U X R} {pp : Point U C}
    (h : judge env chain parent u s = (s', .accepted a pp)) : ∃ s1 s2, env.crlLoad s1 pp.lists.crl = (s2, some pp.crl) := by
  have mft : ∀ {a' sia d s}, judgeMft env chain a' sia d s = (s', .accepted a pp) → ∃ s1 s2, env.crlLoad s1 pp.lists.crl = (s2, some pp.crl) := by
    intro a' sia d s h
    unfold judgeMft at h
    split at h
    · cases h
    · split at h
      · cases h
      · rename_i h1
        split at h
        · cases h
        · cases h
          exact ⟨_, _, h1⟩
  have ca : ∀ {x t s}, judgeCa env chain parent u x t s = (s', .accepted a pp) → ∃ s1 s2, env.crlLoad s1 pp.lists.crl = (s2, some pp.crl) := by
    intro x t s h
    unfold judgeCa at h
    split at h
    · cases h
    · split at h
      · cases h
      · split at h
        · cases h
        · split at h
          · cases h
          · exact mft h
  unfold judge at h
  split at h
  · cases h
  · split at h
    · cases h
    · split at h
      · cases h
      · cases h
      · cases h
      · exact ca h
      · exact ca h

/-- **C91.** What is not the root is only looked at with a CRL, and this is the one that the manifest of the publication point that
lists the file, lists. -/
theorem C91_crl (env : Env σ U X C R S) {fuel : Nat} {s : σ} {root : U} {st : St σ U X C R} {r : TalRes}
    (h : handleTalUri env fuel s root = .done (st, r)) :
    (∀ u xs ms crl, .cert u xs ms crl ∈ st.log → (u = root ∧ xs = [] ∧ crl = none) ∨
      ∃ pp : Point U C, u ∈ pp.lists.certs ∧ crl = some pp.crl ∧ ∃ s1 s2, env.crlLoad s1 pp.lists.crl = (s2, some pp.crl)) ∧
    (∀ u xs ms crl, .roa u xs ms crl ∈ st.log →
      ∃ pp : Point U C, u ∈ pp.lists.roas ∧ crl = pp.crl ∧ ∃ s1 s2, env.crlLoad s1 pp.lists.crl = (s2, some pp.crl)) ∧
    (∀ u xs ms crl, .gbr u xs ms crl ∈ st.log →
      ∃ pp : Point U C, u ∈ pp.lists.gbrs ∧ crl = pp.crl ∧ ∃ s1 s2, env.crlLoad s1 pp.lists.crl = (s2, some pp.crl)) := by
  have key := C51_ancestors env h
  refine ⟨fun u xs ms crl he => ?_, fun u xs ms crl he => ?_, fun u xs ms crl he => ?_⟩
  · obtain ⟨hf, -⟩ := key _ he
    cases hf with
    | cert hu =>
      cases hu with
      | root => exact .inl ⟨rfl, rfl, rfl⟩
      | listed _ hj hv => exact .inr ⟨_, hv, rfl, judge_crl hj⟩
  · obtain ⟨hf, -⟩ := key _ he
    cases hf with
    | roa _ hj hv => exact ⟨_, hv, rfl, judge_crl hj⟩
  · obtain ⟨hf, -⟩ := key _ he
    cases hf with
    | gbr _ hj hv => exact ⟨_, hv, rfl, judge_crl hj⟩

theorem walk_tree (env : Env Unit U X C R S) : ∀ (n : Nat) (chain : List (Anc U X R)) (parent : Option (Point U C)) (u : U) (w : W Unit U X C R),
    (walk env n chain parent u w).1.2 = (tree env n chain parent u).reverse ++ w.2 := by
  have roas : ∀ (chain : List (Anc U X R)) (a : Anc U X R) (pp : Point U C) (us : List U) (w : W Unit U X C R),
      (us.foldl (walkRoa env chain a pp) w).2 = ((us.filter fun v => (env.roaDecode () v).2).map
        (fun v => Event.roa v ((a :: chain).map Anc.x) ((a :: chain).map Anc.meta) pp.crl)).reverse ++ w.2 := by
    intro chain a pp us
    induction us with
    | nil => intro w; rfl
    | cons u us ih =>
      intro w
      rw [List.foldl_cons, ih]
      unfold walkRoa
      cases hd : env.roaDecode w.1 u with
      | mk s b =>
        have hd' : (env.roaDecode () u).2 = b := congrArg Prod.snd hd
        cases b with
        | false => rw [List.filter_cons_of_neg (by simpa using hd')]
        | true => rw [List.filter_cons_of_pos (by simpa using hd')]; simp
  have gbrs : ∀ (chain : List (Anc U X R)) (a : Anc U X R) (pp : Point U C) (us : List U) (w : W Unit U X C R),
      (us.foldl (walkGbr env chain a pp) w).2 = ((us.filter fun v => (env.gbrDecode () v).2).map
        (fun v => Event.gbr v ((a :: chain).map Anc.x) ((a :: chain).map Anc.meta) pp.crl)).reverse ++ w.2 := by
    intro chain a pp us
    induction us with
    | nil => intro w; rfl
    | cons u us ih =>
      intro w
      rw [List.foldl_cons, ih]
      unfold walkGbr
      cases hd : env.gbrDecode w.1 u with
      | mk s b =>
        have hd' : (env.gbrDecode () u).2 = b := congrArg Prod.snd hd
        cases b with
        | false => rw [List.filter_cons_of_neg (by simpa using hd')]
        | true => rw [List.filter_cons_of_pos (by simpa using hd')]; simp
  intro n
  induction n with
  | zero => intro chain parent u w; rfl
  | succ n ih =>
    intro chain parent u w
    unfold walk tree
    cases hj : judge env chain parent u w.1 with
    | mk s verdict =>
      cases verdict with
      | rejected => rfl
      | ignored => rfl
      | accepted a pp =>
        simp only
        have certs : ∀ (us : List U) (w : W Unit U X C R),
            (us.foldl (fun w v => (walk env n (a :: chain) (some pp) v w).1) w).2 = (us.flatMap (tree env n (a :: chain) (some pp))).reverse ++ w.2 := by
          intro us
          induction us with
          | nil => intro w; rfl
          | cons u us ih2 => intro w; rw [List.foldl_cons, ih2, ih]; simp
        rw [certs]
        unfold walkFiles
        rw [gbrs, roas]
        simp

/-- **C92.** When judgements don't depend on what was done before, the files are looked at in depth first order, and the part of a
certificate in this does not depend on what happens to its siblings: `tree` is defined certificate by certificate. -/
theorem C92_isolated (env : Env Unit U X C R S) {fuel : Nat} {root : U} {st : St Unit U X C R} {r : TalRes} (hroot : env.isCert root = true)
    (h : handleTalUri env fuel () root = .done (st, r)) : st.log.reverse = tree env env.maxDepth [] none root := by
  obtain ⟨N, k, hN⟩ := C51_walk env () root hroot
  have e1 := hN (fuel + N) (by omega)
  rw [handleTalUri_mono N (by rw [h]; exact fun h => by cases h), h] at e1
  cases e1
  simp only
  rw [walk_tree]
  simp

/-- A tree: certificate 0 lists 1 and 2; 1 does not validate; 2 lists itself (a loop), and has a ROA. -/
def exEnv : Env Unit Nat Nat Nat Unit Nat where
  maxDepth := 3
  isCert := fun _ => true
  crlLoad := fun s u => (s, some u)
  load := fun s u => (s, some u)
  chainOk := fun s x _ _ => (s, x ≠ 1)
  certType := fun _ ta => some (if ta then .ta else .ca)
  profileOk := fun s _ _ => (s, true)
  keyState := fun _ => .valid
  extensions := fun s x _ _ => (s, some x)
  download := fun s _ => (s, some 100)
  resources := fun s _ _ _ _ => (s, some ())
  mftDecode := fun s x _ => (s, some (if x = 0 then ⟨[1, 2], 50, [], []⟩ else ⟨[2], 52, [9], []⟩))
  mftOk := fun s _ _ _ _ _ _ => (s, true)
  roaDecode := fun s _ => (s, true)
  gbrDecode := fun s _ => (s, true)
  roa := fun s _ _ _ _ _ => s
  gbr := fun s _ _ _ _ _ => s

/-- The loop is cut, the sibling is looked at, publication points are freed. -/
example : ∃ h, handleTalUri exEnv 10 () 0 = .done (⟨[], [], [], h, (), 
    [.roa 9 [2, 2, 0] [(2, ()), (2, ()), (0, ())] 52, .cert 2 [2, 0] [(2, ()), (0, ())] (some 52), .roa 9 [2, 0] [(2, ()), (0, ())] 52,
      .cert 2 [0] [(0, ())] (some 50), .cert 1 [0] [(0, ())] (some 50), .cert 0 [] [] none]⟩, .ok) ∧ h = [none, none, none] := ⟨_, rfl, rfl⟩

end Verif.Tree
