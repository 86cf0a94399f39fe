import Verif.Tal.ThreadsModel
import Verif.Rtr.Spec
import Verif.Rtr.TableLemmas
/-
C53: one validation cycle.
-/
namespace Verif.Tal
open Verif.Rtr (Table Byte Vrp RouterKey)

/-! ### Specification -/

/-- The name ends with ".tal". -/
def IsTal (name : Str) : Prop := ∃ base, name = base ++ talExt

/-- Each name in the list that ends with ".tal" is an existing file, and those are their real paths, in order. -/
inductive Resolves (w : World) : List Str → List Str → Prop
  | nil : Resolves w [] []
  | other {name names tals} : ¬IsTal name → Resolves w names tals → Resolves w (name :: names) tals
  | tal {name names tals path} : IsTal name → w.realpath (w.location ++ [47#8] ++ name) = some path → Resolves w names tals →
    Resolves w (name :: names) (path :: tals)

/-- The TAL files that the configuration refers to; all of them exist. -/
def TalFiles (w : World) (tals : List Str) : Prop :=
  match w.kind with
  | .file => tals = [w.location]
  | .dir names fails => fails = false ∧ Resolves w names tals
  | _ => False

/-- The payloads of all these TALs. -/
structure Union (w : World) (tals : List Str) (db : Table) : Prop where
  roas : ∀ v, v ∈ db.roas ↔ ∃ f ∈ tals, ∃ t, w.validate f = some t ∧ v ∈ t.roas
  keys : ∀ k, k ∈ db.keys ↔ ∃ f ∈ tals, ∃ t, w.validate f = some t ∧ k ∈ t.keys

/-! ### Helpers -/

theorem strrchrDot_append (s : Str) : strrchrDot (s ++ talExt) = some talExt := by
  induction s with
  | nil => rfl
  | cons c s ih => rw [List.cons_append, strrchrDot, ih]

theorem strrchrDot_suffix : ∀ (s r : Str), strrchrDot s = some r → ∃ b, s = b ++ r
  | [], r, h => by cases h
  | c :: s, r, h => by
    unfold strrchrDot at h
    cases h1 : strrchrDot s with
    | some r' =>
      rw [h1] at h
      cases h
      obtain ⟨b, e⟩ := strrchrDot_suffix s r h1
      exact ⟨c :: b, by rw [e]; rfl⟩
    | none =>
      rw [h1] at h
      simp only at h
      split at h
      · cases h; exact ⟨[], rfl⟩
      · cases h

theorem isTal_iff {name : Str} : strrchrDot name = some talExt ↔ IsTal name :=
  ⟨strrchrDot_suffix name talExt, fun ⟨b, e⟩ => by rw [e]; exact strrchrDot_append b⟩

/-- Each pointer in the list points to the thread of the file at the same place. -/
inductive At (heap : List (Option Thread)) : List Nat → List Str → Prop
  | nil : At heap [] []
  | cons {id ids f fs} : heap[id]? = some (some ⟨f⟩) → At heap ids fs → At heap (id :: ids) (f :: fs)

theorem At.mono {heap heap' : List (Option Thread)} {ids fs} (h : At heap ids fs) (hs : ∀ id ∈ ids, heap'[id]? = heap[id]?) : At heap' ids fs := by
  induction h with
  | nil => exact .nil
  | cons h1 _ ih => exact .cons ((hs _ (List.mem_cons_self ..)).trans h1) (ih fun i hi => hs i (List.mem_cons_of_mem _ hi))

/-- The list of threads is sound, with these files' threads in it, the most recent one first. -/
structure Good (st : St) (fs : List Str) : Prop where
  at_ : At st.heap st.threads fs
  nodup : st.threads.Nodup
  lt : ∀ id ∈ st.threads, id < st.heap.length

theorem getElem?_append_lt {α} (l m : List α) {i : Nat} (h : i < l.length) : (l ++ m)[i]? = l[i]? :=
  List.getElem?_append_left h

theorem Good.spawn {w : World} {st : St} {fs : List Str} (h : Good st fs) {path : Str} (hs : w.spawns path = true) :
    ∃ st', spawnTalThread w path st = (st', true) ∧ Good st' (path :: fs) := by
  unfold spawnTalThread
  rw [if_pos hs]
  refine ⟨_, rfl, ?_, ?_, ?_⟩
  · refine .cons (by simp) (h.at_.mono fun id hid => getElem?_append_lt _ _ (h.lt id hid))
  · exact List.nodup_cons.2 ⟨fun hc => absurd (h.lt _ hc) (Nat.lt_irrefl _), h.nodup⟩
  · intro id hid
    simp only [List.length_append, List.length_singleton]
    rcases List.mem_cons.1 hid with rfl | hid
    · omega
    · have := h.lt id hid; omega

theorem Good.dirLoop {w : World} {names tals : List Str} (hr : Resolves w names tals) (hs : ∀ f ∈ tals, w.spawns f = true) (rest : List Str) :
    ∀ (found : Nat) (st : St) (fs : List Str), Good st fs →
    ∃ st', dirLoop w (names ++ rest) found st = Tal.dirLoop w rest (found + tals.length) st' ∧ Good st' (tals.reverse ++ fs) := by
  induction hr with
  | nil => intro found st fs h; exact ⟨st, rfl, h⟩
  | other hn _ ih =>
    intro found st fs h
    obtain ⟨st', e, g⟩ := ih hs found st fs h
    refine ⟨st', ?_, g⟩
    rw [← e, List.cons_append, Tal.dirLoop]
    unfold processFile
    rw [if_pos (fun hc => hn (isTal_iff.1 hc))]
  | tal hn hp _ ih =>
    rename_i path _
    intro found st fs h
    obtain ⟨st1, e1, g1⟩ := h.spawn (hs path (List.mem_cons_self ..))
    obtain ⟨st', e, g⟩ := ih (fun f hf => hs f (List.mem_cons_of_mem _ hf)) (found + 1) st1 _ g1
    refine ⟨st', ?_, by simpa using g⟩
    rw [List.length_cons, Nat.add_comm _ 1, ← Nat.add_assoc, ← e, List.cons_append, Tal.dirLoop]
    unfold processFile
    rw [if_neg (fun hc => hc (isTal_iff.2 hn)), hp]
    simp only
    rw [e1]

theorem Good.init : Good ⟨[], []⟩ [] := ⟨.nil, List.nodup_nil, fun _ h => by cases h⟩

/-- What the join loop computes. -/
def joinFold (w : World) : List Str → Option Table → Bool → Option Table × Bool
  | [], db, error => (db, error)
  | f :: fs, db, error =>
    match w.validate f, db, error with
    | none, db, _ => joinFold w fs db true
    | some _, db, true => joinFold w fs db true
    | some t, none, false => joinFold w fs (some t) false
    | some t, some d, false => joinFold w fs (some (d.join t)) false

theorem joinAll_eq {w : World} : ∀ (ids : List Nat) (fs : List Str) (heap : List (Option Thread)) (db : Option Table) (error : Bool),
    At heap ids fs → ids.Nodup → joinAll w ids heap db error = .ok (joinFold w fs db error)
  | [], _, heap, db, error, h, _ => by cases h; rfl
  | id :: ids, _, heap, db, error, h, hn => by
    cases h with
    | cons h1 h2 =>
      rename_i f fs
      obtain ⟨hn1, hn2⟩ := List.nodup_cons.1 hn
      have h3 : At (heap.set id none) ids fs := h2.mono fun i hi => List.getElem?_set_ne (fun e => hn1 (by rw [e]; exact hi))
      unfold joinAll
      have hj : heap[id]?.join = some ⟨f⟩ := by rw [h1]; rfl
      rw [hj]
      simp only
      rw [joinAll_eq ids fs _ _ _ h3 hn2]
      congr 1
      rw [joinFold.eq_def w (f :: fs)]
      cases hv : w.validate f with
      | none => simp [hv]
      | some t =>
        cases error with
        | true => simp [hv]
        | false => cases db <;> simp [hv]

theorem joinFold_error {w : World} : ∀ (fs : List Str) (db : Option Table), (joinFold w fs db true).2 = true
  | [], _ => rfl
  | f :: fs, db => by
    unfold joinFold
    cases w.validate f with
    | none => exact joinFold_error fs db
    | some t => exact joinFold_error fs db

theorem joinFold_none {w : World} : ∀ (fs : List Str) (db : Option Table) (error : Bool), (∃ f ∈ fs, w.validate f = none) → (joinFold w fs db error).2 = true
  | [], _, _, ⟨f, hf, _⟩ => by cases hf
  | f :: fs, db, error, ⟨g, hg, hn⟩ => by
    unfold joinFold
    cases hv : w.validate f with
    | none => exact joinFold_error fs db
    | some t =>
      have : ∃ f ∈ fs, w.validate f = none := by
        rcases List.mem_cons.1 hg with rfl | h
        · rw [hv] at hn; cases hn
        · exact ⟨g, h, hn⟩
      cases error with
      | true => exact joinFold_error fs db
      | false =>
        cases db with
        | none => exact joinFold_none fs _ _ this
        | some d => exact joinFold_none fs _ _ this

theorem joinFold_some {w : World} : ∀ (fs : List Str) (d : Table), (∀ f ∈ fs, w.validate f ≠ none) →
    ∃ d', joinFold w fs (some d) false = (some d', false) ∧
      (∀ v, v ∈ d'.roas ↔ v ∈ d.roas ∨ ∃ f ∈ fs, ∃ t, w.validate f = some t ∧ v ∈ t.roas) ∧
      (∀ k, k ∈ d'.keys ↔ k ∈ d.keys ∨ ∃ f ∈ fs, ∃ t, w.validate f = some t ∧ k ∈ t.keys) ∧
      (d.WF → (∀ f ∈ fs, ∀ t, w.validate f = some t → t.WF) → d'.WF)
  | [], d, _ => ⟨d, rfl, fun v => by simp, fun k => by simp, fun h _ => h⟩
  | f :: fs, d, h => by
    unfold joinFold
    cases hv : w.validate f with
    | none => exact absurd hv (h f (List.mem_cons_self ..))
    | some t =>
      obtain ⟨d', e, h1, h2, h3⟩ := joinFold_some fs (d.join t) fun f hf => h f (List.mem_cons_of_mem _ hf)
      refine ⟨d', e, fun v => ?_, fun k => ?_, fun hd hw => h3 (Rtr.WF.join hd (hw f (List.mem_cons_self ..) t hv)) fun f hf => hw f (List.mem_cons_of_mem _ hf)⟩
      · rw [h1, Rtr.join_eq]
        simp only [Rtr.mem_foldl_hashReplace, List.mem_cons, exists_eq_or_imp, hv, Option.some.injEq, exists_eq_left']
        rw [or_assoc]
      · rw [h2, Rtr.join_eq]
        simp only [Rtr.mem_foldl_hashReplace, List.mem_cons, exists_eq_or_imp, hv, Option.some.injEq, exists_eq_left']
        rw [or_assoc]

theorem joinFold_union {w : World} (fs : List Str) (hne : fs ≠ []) (h : ∀ f ∈ fs, w.validate f ≠ none) :
    ∃ d, joinFold w fs none false = (some d, false) ∧ Union w fs d ∧ ((∀ f ∈ fs, ∀ t, w.validate f = some t → t.WF) → d.WF) := by
  cases fs with
  | nil => exact absurd rfl hne
  | cons f fs =>
    unfold joinFold
    cases hv : w.validate f with
    | none => exact absurd hv (h f (List.mem_cons_self ..))
    | some t =>
      obtain ⟨d', e, h1, h2, h3⟩ := joinFold_some fs t fun f hf => h f (List.mem_cons_of_mem _ hf)
      refine ⟨d', e, ⟨fun v => ?_, fun k => ?_⟩, fun hw => h3 (hw f (List.mem_cons_self ..) t hv) fun f hf => hw f (List.mem_cons_of_mem _ hf)⟩
      · rw [h1]
        simp only [List.mem_cons, exists_eq_or_imp, hv, Option.some.injEq, exists_eq_left']
      · rw [h2]
        simp only [List.mem_cons, exists_eq_or_imp, hv, Option.some.injEq, exists_eq_left']

theorem Union.perm {w : World} {fs gs : List Str} {d : Table} (h : Union w fs d) (hp : ∀ f, f ∈ fs ↔ f ∈ gs) : Union w gs d :=
  ⟨fun v => by rw [h.roas]; simp only [hp], fun k => by rw [h.keys]; simp only [hp]⟩

theorem foreachFile_ok {w : World} {tals : List Str} (ht : TalFiles w tals) (hs : ∀ f ∈ tals, w.spawns f = true) :
    ∃ st, foreachFile w ⟨[], []⟩ = (st, decide (tals ≠ [])) ∧ Good st tals.reverse := by
  unfold TalFiles at ht
  unfold foreachFile
  cases hk : w.kind with
  | unreadable => rw [hk] at ht; exact ht.elim
  | closed => rw [hk] at ht; exact ht.elim
  | file =>
    rw [hk] at ht
    simp only at ht ⊢
    subst ht
    obtain ⟨st, e, g⟩ := Good.init.spawn (hs w.location (List.mem_singleton.2 rfl))
    exact ⟨st, e, g⟩
  | dir names fails =>
    rw [hk] at ht
    simp only at ht ⊢
    obtain ⟨rfl, hr⟩ := ht
    obtain ⟨st, e, g⟩ := Good.init.dirLoop hr hs [] 0 _ _
    rw [List.append_nil] at e g
    rw [e]
    simp only [dirLoop, Nat.zero_add]
    refine ⟨st, ?_, g⟩
    cases tals <;> simp

/-- **C53** (partial: of existing files, and if all threads can be created; see `C53_refuted`). The result of a cycle is the union of
what all TALs yield if there are some and each of them yields something, and nothing otherwise. It does not depend on the order of
the directory nor on that of the threads. -/
theorem C53_partial (w : World) (tals : List Str) (ht : TalFiles w tals) (hs : ∀ f ∈ tals, w.spawns f = true) :
    ∃ r, performStandaloneValidation w = .ok r ∧
      (r = none ↔ tals = [] ∨ ∃ f ∈ tals, w.validate f = none) ∧
      ∀ db, r = some db → Union w tals db ∧ ((∀ f ∈ tals, ∀ t, w.validate f = some t → t.WF) → db.WF) := by
  obtain ⟨st, e, g⟩ := foreachFile_ok ht hs
  unfold performStandaloneValidation
  rw [e]
  by_cases hne : tals = []
  · subst hne
    rw [show decide (([] : List Str) ≠ []) = false from rfl]
    have h1 : st.threads = [] := by
      have := g.at_
      cases hth : st.threads with
      | nil => rfl
      | cons a b => rw [hth] at this; cases this
    simp only [h1, freeAll]
    exact ⟨none, rfl, by simp, fun db h => by cases h⟩
  · rw [show decide (tals ≠ []) = true by simpa using hne]
    simp only
    rw [joinAll_eq _ _ _ _ _ g.at_ g.nodup]
    by_cases hall : ∃ f ∈ tals, w.validate f = none
    · have h2 := joinFold_none (w := w) tals.reverse none false (by obtain ⟨f, hf, hn⟩ := hall; exact ⟨f, List.mem_reverse.2 hf, hn⟩)
      cases hj : joinFold w tals.reverse none false with
      | mk db err =>
      rw [hj] at h2
      simp only at h2
      subst h2
      exact ⟨none, rfl, by simp [hall], fun db h => by cases h⟩
    · have hall' : ∀ f ∈ tals.reverse, w.validate f ≠ none := fun f hf hn => hall ⟨f, List.mem_reverse.1 hf, hn⟩
      obtain ⟨d, e2, u, wf⟩ := joinFold_union tals.reverse (by simpa using hne) hall'
      rw [e2]
      refine ⟨some d, rfl, by simp [hne, hall], fun db h => ?_⟩
      cases h
      exact ⟨u.perm fun f => List.mem_reverse, fun hw => wf fun f hf => hw f (List.mem_reverse.1 hf)⟩

/-- **C53.** Nothing is validated, and the cycle fails, if the location can't be read. -/
theorem C53_unreadable (w : World) (h : w.kind = .unreadable ∨ w.kind = .closed) : performStandaloneValidation w = .ok none := by
  unfold performStandaloneValidation foreachFile
  rcases h with h | h <;> rw [h] <;> rfl

theorem freeAll_eq {w : World} : ∀ (ids : List Nat) (fs : List Str) (heap : List (Option Thread)), At heap ids fs → ids.Nodup →
    freeAll w ids heap = if ∀ f ∈ fs, w.ended f = true then .ok () else .ub
  | [], _, heap, h, _ => by cases h; simp [freeAll]
  | id :: ids, _, heap, h, hn => by
    cases h with
    | cons h1 h2 =>
      rename_i f fs
      obtain ⟨hn1, hn2⟩ := List.nodup_cons.1 hn
      have h3 : At (heap.set id none) ids fs := h2.mono fun i hi => List.getElem?_set_ne (fun e => hn1 (by rw [e]; exact hi))
      unfold freeAll
      have hj : heap[id]?.join = some ⟨f⟩ := by rw [h1]; rfl
      rw [hj]
      simp only
      rw [freeAll_eq ids fs _ h3 hn2]
      by_cases he : w.ended f = true
      · rw [if_pos he]; simp only [List.mem_cons, forall_eq_or_imp, he, true_and]
      · rw [if_neg he, if_neg (fun h => he (h f (List.mem_cons_self ..)))]

/-- **C53 is refuted** by a TAL directory with a dangling link in it: the threads that were created before it was found are freed while
they run. (If they happen to have ended already, the cycle just fails.) -/
theorem C53_refuted_dangling (w : World) (pre post tals : List Str) (name : Str) (fails : Bool)
    (hk : w.kind = .dir (pre ++ name :: post) fails) (hr : Resolves w pre tals) (hs : ∀ f ∈ tals, w.spawns f = true)
    (hn : IsTal name) (hd : w.realpath (w.location ++ [47#8] ++ name) = none) :
    performStandaloneValidation w = if ∀ f ∈ tals, w.ended f = true then .ok none else .ub := by
  obtain ⟨st, e, g⟩ := Good.init.dirLoop hr hs (name :: post) 0 _ _
  unfold performStandaloneValidation foreachFile
  rw [hk]
  simp only
  rw [e, dirLoop]
  unfold processFile
  rw [if_neg (fun hc => hc (isTal_iff.2 hn)), hd]
  simp only
  rw [List.append_nil] at g
  rw [freeAll_eq _ _ _ g.at_ g.nodup]
  simp only [List.mem_reverse]
  by_cases h : ∀ f ∈ tals, w.ended f = true
  · rw [if_pos h, if_pos h]
  · rw [if_neg h, if_neg h]

/-- **C53 is refuted** by a failure of `pthread_create`: the thread was freed but is still listed. -/
theorem C53_refuted_spawn (w : World) (pre post tals : List Str) (name path : Str) (fails : Bool)
    (hk : w.kind = .dir (pre ++ name :: post) fails) (hr : Resolves w pre tals) (hs : ∀ f ∈ tals, w.spawns f = true)
    (hn : IsTal name) (hd : w.realpath (w.location ++ [47#8] ++ name) = some path) (hf : w.spawns path = false) :
    performStandaloneValidation w = .ub := by
  obtain ⟨st, e, g⟩ := Good.init.dirLoop hr hs (name :: post) 0 _ _
  unfold performStandaloneValidation foreachFile
  rw [hk]
  simp only
  rw [e, dirLoop]
  unfold processFile
  rw [if_neg (fun hc => hc (isTal_iff.2 hn)), hd]
  simp only [spawnTalThread, hf]
  simp [freeAll]

/-! ### Examples -/

/-- "a.tal", "b.tal", "README", "c.tal.bak" -/
def exA : Str := [97#8] ++ talExt
def exB : Str := [98#8] ++ talExt
def exReadme : Str := [82#8, 69#8]
def exBak : Str := [99#8] ++ talExt ++ [46#8, 98#8]

def exWorld (b : Option Str) (spawns : Bool) : World where
  location := [116#8]
  kind := .dir [exReadme, exA, exBak, exB] false
  realpath := fun p => if p = [116#8, 47#8] ++ exB then b else some p
  spawns := fun p => p = [116#8, 47#8] ++ exA || spawns
  validate := fun p => if p = [116#8, 47#8] ++ exA then some ⟨[⟨1, .v4, 5, 8, 8⟩], []⟩ else some ⟨[⟨2, .v4, 5, 8, 8⟩, ⟨1, .v4, 5, 8, 8⟩], []⟩
  ended := fun _ => false

/-- Hypotheses of `C53_partial`. -/
example : TalFiles (exWorld (some ([116#8, 47#8] ++ exB)) true) [[116#8, 47#8] ++ exA, [116#8, 47#8] ++ exB] := by
  refine ⟨rfl, ?_⟩
  refine .other (fun h => by have := isTal_iff.2 h; revert this; decide) ?_
  refine .tal ⟨_, rfl⟩ rfl ?_
  refine .other (fun h => by have := isTal_iff.2 h; revert this; decide) ?_
  exact .tal ⟨_, rfl⟩ rfl .nil

example : performStandaloneValidation (exWorld (some ([116#8, 47#8] ++ exB)) true) =
    .ok (some ⟨[⟨2, .v4, 5, 8, 8⟩, ⟨1, .v4, 5, 8, 8⟩], []⟩) := by decide

/-- The refutations' witnesses. -/
example : performStandaloneValidation (exWorld none true) = .ub := by decide
example : performStandaloneValidation (exWorld (some ([116#8, 47#8] ++ exB)) false) = .ub := by decide

end Verif.Tal
