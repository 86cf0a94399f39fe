import Verif.Upd.Model
/-
Triples.
-/
namespace Verif.Upd
open Verif.Heap

/-! ### Tables -/

theorem things_cons (t : Option Table) (x : Table) (h : t = some x) : tableThings t = x.self :: x.rows.map Prod.snd := by subst h; simp [tableThings, Table.things]

theorem t_tableNew {L : List Id} : Tri (Own L) tableNew (fun t => Own (t.things ++ L)) := Tri.bind t_new fun _ => Tri.pure fun _ h => h

theorem t_tableDestroy {L : List Id} : ∀ t : Option Table, Tri (Own (tableThings t ++ L)) (tableDestroy t) (fun _ => Own L)
  | none => Tri.pure fun _ h => h
  | some t => by
    refine Tri.bind (Tri.perm (t_freeAll (L := t.self :: L) (t.rows.map Prod.snd)) fun i => ?_) fun _ => t_free
    simp only [things_cons _ t rfl, List.count_append, List.count_cons]; omega

theorem count_eraseP (l : List (Nat × Id)) (k : Nat) (x : Nat × Id) (h : l.find? (fun x => x.1 = k) = some x) (i : Id) :
    (l.map Prod.snd).count i = ((x.2) :: (l.eraseP (fun x => x.1 = k)).map Prod.snd).count i := by
  induction l with
  | nil => simp at h
  | cons y l ih =>
    by_cases hy : y.1 = k
    · rw [List.find?_cons_of_pos (by simpa using hy)] at h
      cases h
      rw [List.eraseP_cons_of_pos (by simpa using hy)]
      simp [List.count_cons]
    · rw [List.find?_cons_of_neg (by simpa using hy)] at h
      rw [List.eraseP_cons_of_neg (by simpa using hy)]
      have := ih h
      simp only [List.map_cons, List.count_cons] at this ⊢
      omega

theorem t_addRow {L : List Id} {t : Table} {k : Nat} {row : Id} : Tri (Own (row :: t.things ++ L)) (addRow t k row) (fun t => Own (t.things ++ L)) := by
  refine Tri.bind (t_use (by simp [Table.things])) fun _ => Tri.bind (t_use (by simp)) fun _ => ?_
  cases hf : t.rows.find? (fun x => x.1 = k) with
  | none =>
    refine Tri.pure fun s h => h.perm fun i => ?_
    simp only [Table.things, List.map_cons, List.count_append, List.count_cons]; omega
  | some old =>
    refine Tri.bind (Tri.perm (t_free (L := { t with rows := (k, row) :: t.rows.eraseP (fun x => x.1 = k) }.things ++ L)) fun i => ?_) fun _ => Tri.pure fun _ h => h
    have := count_eraseP t.rows k old hf i
    simp only [Table.things, List.map_cons, List.count_append, List.count_cons] at this ⊢; omega

theorem t_addNew {L : List Id} {t : Table} : Tri (Own (t.things ++ L)) (addNew t) (fun t => Own (t.things ++ L)) :=
  Tri.bind t_new fun _ => Tri.bind t_ask fun _ => t_addRow

theorem t_addRows {L : List Id} : ∀ (n : Nat) (t : Table), Tri (Own (t.things ++ L)) (addRows n t) (fun t => Own (t.things ++ L))
  | 0, _ => Tri.pure fun _ h => h
  | n + 1, _ => Tri.bind t_addNew fun t => t_addRows n t

theorem t_joinRows {L : List Id} : ∀ (l : List (Nat × Id)) (t : Table), Tri (Own (l.map Prod.snd ++ (t.things ++ L))) (joinRows l t) (fun t => Own (t.things ++ L))
  | [], _ => Tri.pure fun _ h => h
  | (k, row) :: l, t => by
    refine Tri.bind (Tri.perm (t_addRow (L := l.map Prod.snd ++ L)) fun i => ?_) fun t' => Tri.perm (t_joinRows l t') fun i => ?_
    · simp only [List.map_cons, List.count_append, List.count_cons]; omega
    · simp only [List.count_append]; omega

theorem t_removeRow {L : List Id} {t : Table} {k : Nat} : Tri (Own (t.things ++ L)) (removeRow t k) (fun t => Own (t.things ++ L)) := by
  unfold removeRow
  cases hf : t.rows.find? (fun x => x.1 = k) with
  | none => exact Tri.pure fun _ h => h
  | some old =>
    refine Tri.bind (Tri.perm (t_free (L := { t with rows := t.rows.eraseP (fun x => x.1 = k) }.things ++ L)) fun i => ?_) fun _ => Tri.pure fun _ h => h
    have := count_eraseP t.rows k old hf i
    simp only [Table.things, List.count_append, List.count_cons] at this ⊢; omega

theorem t_removeRows {L : List Id} : ∀ (n : Nat) (t : Table), Tri (Own (t.things ++ L)) (removeRows n t) (fun t => Own (t.things ++ L))
  | 0, _ => Tri.pure fun _ h => h
  | n + 1, _ => Tri.bind t_ask fun _ => Tri.bind t_removeRow fun t => t_removeRows n t

/-! ### The validation -/

theorem t_doFileValidation {L : List Id} : Tri (Own L) doFileValidation (fun t => Own (tableThings t ++ L)) := by
  refine Tri.bind t_askB fun _ => Tri.ite (fun _ => Tri.pure fun _ h => h) fun _ => ?_
  refine Tri.bind t_ask fun n => Tri.bind t_tableNew fun t => Tri.bind (t_addRows n t) fun t => Tri.bind t_askB fun _ => ?_
  have e : tableThings (some t) = t.things := by simp [tableThings]
  refine Tri.ite (fun _ => ?_) fun _ => Tri.pure fun _ h => by rw [e]; exact h
  rw [← e]
  exact Tri.bind (t_tableDestroy _) fun _ => Tri.pure fun _ h => h

theorem t_spawn {L : List Id} : ∀ (n : Nat) (l : List Thread), Tri (Own (l.flatMap Thread.things ++ L)) (spawn n l) (fun l => Own (l.flatMap Thread.things ++ L))
  | 0, _ => Tri.pure fun _ h => h
  | n + 1, l => by
    refine Tri.bind t_new fun self => Tri.bind t_new fun name => Tri.bind t_doFileValidation fun db => Tri.perm (t_spawn n _) fun i => ?_
    simp only [List.flatMap_cons, Thread.things, List.count_append, List.count_cons]; omega

theorem t_threadDestroy {L : List Id} {t : Thread} : Tri (Own (t.things ++ L)) (threadDestroy t) (fun _ => Own L) := by
  refine Tri.bind (Tri.perm (t_free (L := tableThings t.db ++ (t.self :: L))) fun i => ?_) fun _ => Tri.bind (t_tableDestroy _) fun _ => t_free
  simp only [Thread.things, List.count_append, List.count_cons]; omega

theorem t_joinThreads {L : List Id} : ∀ (l : List Thread) (db : Option Table) (e : Bool), Tri (Own (l.flatMap Thread.things ++ (tableThings db ++ L))) (joinThreads l db e) (fun db => Own (tableThings db ++ L))
  | [], db, e => by
    cases e with
    | true => exact Tri.bind (t_tableDestroy db) fun _ => Tri.pure fun _ h => h
    | false => exact Tri.pure fun _ h => h
  | t :: l, db, e => by
    have hdef : Tri (Own ((t :: l).flatMap Thread.things ++ (tableThings db ++ L))) (do threadDestroy t; joinThreads l db true) (fun db => Own (tableThings db ++ L)) := by
      refine Tri.bind (Tri.perm (t_threadDestroy (L := l.flatMap Thread.things ++ (tableThings db ++ L))) fun i => ?_) fun _ => t_joinThreads l db true
      simp only [List.flatMap_cons, List.count_append]; omega
    refine Tri.bind (t_use (by simp [Thread.things])) fun _ => ?_
    obtain ⟨self, name, tdb⟩ := t
    cases e with
    | true => exact hdef
    | false =>
      cases tdb with
      | none => exact hdef
      | some d =>
        cases db with
        | none =>
          refine Tri.bind (Tri.perm (t_threadDestroy (t := ⟨self, name, none⟩) (L := l.flatMap Thread.things ++ (tableThings (some d) ++ L))) fun i => ?_) fun _ => t_joinThreads l (some d) false
          simp only [List.flatMap_cons, Thread.things, tableThings, Option.toList, List.flatMap_nil, List.count_append, List.count_cons, List.count_nil]; omega
        | some b =>
          refine Tri.bind (Tri.perm (t_joinRows (L := (⟨self, name, some { d with rows := [] }⟩ : Thread).things ++ (l.flatMap Thread.things ++ L)) d.rows b) fun i => ?_) fun b => ?_
          · simp only [List.flatMap_cons, Thread.things, tableThings, Table.things, Option.toList, List.flatMap_nil, List.map_nil, List.count_append, List.count_cons, List.count_nil]; omega
          refine Tri.bind (Tri.perm (t_threadDestroy (L := l.flatMap Thread.things ++ (tableThings (some b) ++ L))) fun i => ?_) fun _ => t_joinThreads l (some b) false
          simp only [tableThings, Option.toList, List.flatMap_cons, List.flatMap_nil, List.count_append, List.count_nil]; omega

theorem t_performValidation {L : List Id} : Tri (Own L) performValidation (fun db => Own (tableThings db ++ L)) := by
  refine Tri.bind t_askB fun _ => Tri.ite (fun _ => Tri.pure fun _ h => h) fun _ => ?_
  exact Tri.bind t_ask fun n => Tri.bind (t_spawn n []) fun l => t_joinThreads l none false

/-! ### SLURM -/

/-- The counters are what they should be. -/
def Good (l : Lists) : Prop := (∀ w ∈ l.filters, w.refs = 1) ∧ ∀ w ∈ l.assertions, w.refs = 1

structure SOk (db : Slurm) : Prop where
  lists : Good db.lists
  cache : ∀ x ∈ db.cache, Good x.2

def Lists.things (l : Lists) : List Id := (l.filters ++ l.assertions).flatMap Wrap.things

theorem t_wrapPuts {L : List Id} : ∀ l : List Wrap, (∀ w ∈ l, w.refs = 1) → Tri (Own (l.flatMap Wrap.things ++ L)) (wrapPuts l) (fun _ => Own L)
  | [], _ => Tri.pure fun _ h => h
  | w :: l, hl => by
    refine Tri.bind (Q := fun _ => Own (l.flatMap Wrap.things ++ L)) ?_ fun _ => t_wrapPuts l fun w hw => hl w (List.mem_cons_of_mem _ hw)
    refine Tri.ite (fun _ => Tri.perm (t_freeAll w.things) fun i => ?_) fun h => absurd (hl w List.mem_cons_self) h
    simp only [List.flatMap_cons, List.count_append]; omega

theorem t_wrapPuts2 {L : List Id} : ∀ l : List Wrap, (∀ w ∈ l, w.refs = 2) → Tri (Own L) (wrapPuts l) (fun _ => Own L)
  | [], _ => Tri.pure fun _ h => h
  | w :: l, hl => by
    refine Tri.bind (Q := fun _ => Own L) ?_ fun _ => t_wrapPuts2 l fun w hw => hl w (List.mem_cons_of_mem _ hw)
    refine Tri.ite (fun h => ?_) fun _ => Tri.pure fun _ h => h
    have := hl w List.mem_cons_self
    omega

theorem t_listsCleanup {L : List Id} {l : Lists} (h : Good l) : Tri (Own (l.things ++ L)) (listsCleanup l) (fun _ => Own L) := by
  refine Tri.bind (Tri.perm (t_wrapPuts (L := l.assertions.flatMap Wrap.things ++ L) l.filters h.1) fun i => ?_) fun _ => t_wrapPuts l.assertions h.2
  simp only [Lists.things, List.flatMap_append, List.count_append]; omega

theorem t_listsDestroy {L : List Id} {x : Id × Lists} (h : Good x.2) : Tri (Own (x.1 :: x.2.things ++ L)) (listsDestroy x) (fun _ => Own L) := by
  refine Tri.bind (Tri.perm (t_listsCleanup (L := x.1 :: L) h) fun i => ?_) fun _ => t_free
  simp only [List.count_append, List.count_cons]; omega

theorem slurm_things (db : Slurm) : db.things = db.self :: db.lists.things ++ db.cache.toList.flatMap (fun x => x.1 :: x.2.things) ++ db.csums := rfl

theorem t_slurmDestroy {L : List Id} {db : Slurm} (h : SOk db) : Tri (Own (db.things ++ L)) (slurmDestroy db) (fun _ => Own L) := by
  refine Tri.bind (t_use (by simp [slurm_things])) fun _ => ?_
  refine Tri.bind (Tri.perm (t_listsCleanup (L := db.cache.toList.flatMap (fun x => x.1 :: x.2.things) ++ (db.csums ++ (db.self :: L))) h.lists) fun i => ?_) fun _ => ?_
  · simp only [slurm_things, List.count_append, List.count_cons]; omega
  have hend : Tri (Own (db.csums ++ (db.self :: L))) (do freeAll db.csums; free db.self) (fun _ => Own L) := Tri.bind (t_freeAll _) fun _ => t_free
  cases hc : db.cache with
  | none => exact hend
  | some x =>
    refine Tri.bind (Tri.perm (t_listsDestroy (x := x) (L := db.csums ++ (db.self :: L)) (h.cache x hc)) fun i => ?_) fun _ => hend
    simp only [Option.toList, List.flatMap_cons, List.flatMap_nil, List.append_nil]

theorem t_slurmDestroyOpt {L : List Id} {db : Option Slurm} (h : ∀ x ∈ db, SOk x) : Tri (Own (db.toList.flatMap Slurm.things ++ L)) (slurmDestroyOpt db) (fun _ => Own L) := by
  cases db with
  | none => exact Tri.pure fun _ h => h
  | some x => exact Tri.perm (t_slurmDestroy (h x rfl)) fun i => by simp

theorem t_decodeMember {L : List Id} : Tri (Own L) decodeMember (fun r => Own (r.join.toList ++ L)) := by
  refine Tri.bind t_ask fun a => ?_
  match a with
  | 0 => exact Tri.pure fun _ h => h
  | 1 => exact Tri.pure fun _ h => h
  | 2 => exact Tri.bind t_new fun _ => Tri.bind t_free fun _ => Tri.pure fun _ h => h
  | _ + 3 => exact Tri.bind t_new fun _ => Tri.pure fun _ h => h

/-- What the functions of the parser guarantee: the structure owns what it did, and what was added; the counters are fine; there still is a cache. -/
def Loaded (L : List Id) (r : Slurm × Bool) (s : H) : Prop := Own (r.1.things ++ L) s ∧ SOk r.1 ∧ r.1.cache.isSome = true

theorem t_loadBgpsec {L : List Id} {a : Bool} {db : Slurm} (h : SOk db) (hc : db.cache.isSome = true) : Tri (Own (db.things ++ L)) (loadBgpsec a db) (Loaded L) := by
  refine Tri.bind t_askB fun _ => Tri.ite (fun _ => Tri.pure fun _ h1 => ⟨h1, h, hc⟩) fun _ => ?_
  refine Tri.bind t_decodeMember fun r => ?_
  cases r with
  | none => exact Tri.pure fun _ h1 => ⟨h1, h, hc⟩
  | some ski =>
    refine Tri.bind t_decodeMember fun r => ?_
    cases r with
    | none => exact Tri.bind (t_freeAll ski.toList) fun _ => Tri.pure fun _ h1 => ⟨h1, h, hc⟩
    | some key =>
      refine Tri.bind t_askB fun _ => Tri.ite (fun _ => Tri.bind (t_freeAll key.toList) fun _ => Tri.bind (t_freeAll ski.toList) fun _ => Tri.pure fun _ h1 => ⟨h1, h, hc⟩) fun _ => ?_
      cases hx : db.cache with
      | none => rw [hx] at hc; cases hc
      | some x =>
        obtain ⟨c, l⟩ := x
        have hg := h.cache _ hx
        refine Tri.bind (t_use (by simp [slurm_things, hx])) fun _ => Tri.pure fun s h1 => ⟨h1.perm fun i => ?_, ⟨h.lists, ?_⟩, rfl⟩
        · cases a
          all_goals simp only [slurm_things, hx, Lists.things, Option.toList, List.flatMap_cons, List.flatMap_nil, List.flatMap_append, Option.join, Option.bind, id, List.count_append, List.count_cons, List.count_nil, if_true, Bool.false_eq_true, if_false]
          all_goals cases ski
          all_goals cases key
          all_goals simp
          all_goals omega
        · intro y hy
          cases hy
          cases a
          · exact ⟨fun w hw => by
              rcases List.mem_append.1 hw with hw | hw
              · exact hg.1 w hw
              · simp at hw; rw [hw], hg.2⟩
          · exact ⟨hg.1, fun w hw => by
              rcases List.mem_append.1 hw with hw | hw
              · exact hg.2 w hw
              · simp at hw; rw [hw]⟩

theorem t_dump {L : List Id} : Tri (Own L) dump (fun _ => Own L) := Tri.bind t_new fun _ => Tri.bind (t_use List.mem_cons_self) fun _ => t_lose

theorem t_loadBgpsecs {L : List Id} {a : Bool} : ∀ (n : Nat) {db : Slurm} (_ : SOk db) (_ : db.cache.isSome = true), Tri (Own (db.things ++ L)) (loadBgpsecs a n db) (Loaded L)
  | 0, _, h, hc => Tri.pure fun _ h1 => ⟨h1, h, hc⟩
  | n + 1, _, h, hc => by
    refine Tri.bind (t_loadBgpsec h hc) fun r => ?_
    obtain ⟨db, e⟩ := r
    cases e with
    | true => exact Tri.pre fun hd => Tri.bind t_dump fun _ => Tri.pure fun _ h1 => ⟨h1, hd⟩
    | false => exact Tri.pre fun hd => t_loadBgpsecs n hd.1 hd.2

theorem t_loadPrefixes {L : List Id} : ∀ (n : Nat) {db : Slurm} (_ : SOk db) (_ : db.cache.isSome = true), Tri (Own (db.things ++ L)) (loadPrefixes n db) (Loaded L)
  | 0, _, h, hc => Tri.pure fun _ h1 => ⟨h1, h, hc⟩
  | n + 1, db, h, hc => by
    refine Tri.bind t_askB fun _ => Tri.ite (fun _ => Tri.bind t_dump fun _ => Tri.pure fun _ h1 => ⟨h1, h, hc⟩) fun _ => ?_
    cases hx : db.cache with
    | none => rw [hx] at hc; cases hc
    | some x =>
      obtain ⟨c, l⟩ := x
      have hg := h.cache _ hx
      refine Tri.bind (t_use (by simp [slurm_things, hx])) fun _ => Tri.perm (t_loadPrefixes n ⟨h.lists, fun y hy => by cases hy; exact hg⟩ rfl) fun i => ?_
      simp only [slurm_things, hx, Lists.things, Option.toList, List.flatMap_cons, List.flatMap_nil, List.append_nil]

theorem t_loadSection {L : List Id} {a : Bool} {db : Slurm} (h : SOk db) (hc : db.cache.isSome = true) : Tri (Own (db.things ++ L)) (loadSection a db) (Loaded L) := by
  refine Tri.bind t_askB fun _ => Tri.ite (fun _ => Tri.pure fun _ h1 => ⟨h1, h, hc⟩) fun _ => ?_
  refine Tri.bind t_ask fun n => Tri.bind (t_loadPrefixes n h hc) fun r => ?_
  obtain ⟨db, e⟩ := r
  cases e with
  | true => exact Tri.pre fun hd => Tri.pure fun _ h1 => ⟨h1, hd⟩
  | false => exact Tri.pre fun hd => Tri.bind t_ask fun n => t_loadBgpsecs n hd.1 hd.2

theorem t_flushCache {L : List Id} {db : Slurm} (h : SOk db) (hc : db.cache.isSome = true) : Tri (Own (db.things ++ L)) (flushCache db) (fun r s => Own (r.things ++ L) s ∧ SOk r ∧ r.cache = none) := by
  unfold flushCache
  cases hx : db.cache with
  | none => rw [hx] at hc; cases hc
  | some x =>
    obtain ⟨c, l⟩ := x
    have hg := h.cache _ hx
    refine Tri.bind (t_use (by simp [slurm_things, hx])) fun _ => ?_
    have hd : ∀ L' : List Id, Tri (Own (c :: L')) (listsDestroy (c, ⟨l.prefixes, (persist l.filters).2, (persist l.assertions).2⟩)) (fun _ => Own L') := by
      intro L'
      refine Tri.bind (Tri.bind (Q := fun _ => Own (c :: L')) (t_wrapPuts2 _ fun w hw => ?_) fun _ => t_wrapPuts2 _ fun w hw => ?_) fun _ => t_free
      · obtain ⟨v, hv, rfl⟩ := List.mem_map.1 hw
        show v.refs + 1 = 2
        rw [hg.1 v hv]
      · obtain ⟨v, hv, rfl⟩ := List.mem_map.1 hw
        show v.refs + 1 = 2
        rw [hg.2 v hv]
    let r : Slurm := { db with lists := ⟨db.lists.prefixes || l.prefixes, db.lists.filters ++ l.filters, db.lists.assertions ++ l.assertions⟩, cache := none }
    refine Tri.bind (Tri.perm (hd (r.things ++ L)) fun i => ?_) fun _ => Tri.pure fun s h1 => ⟨h1, ⟨⟨fun w hw => ?_, fun w hw => ?_⟩, fun y hy => by cases hy⟩, rfl⟩
    · simp only [r, slurm_things, hx, Lists.things, Option.toList, List.flatMap_cons, List.flatMap_nil, List.flatMap_append, List.count_append, List.count_cons, List.count_nil]; omega
    · rcases List.mem_append.1 hw with hw | hw
      · exact h.lists.1 w hw
      · exact hg.1 w hw
    · rcases List.mem_append.1 hw with hw | hw
      · exact h.lists.2 w hw
      · exact hg.2 w hw

theorem t_handleJson {L : List Id} {db : Slurm} (h : SOk db) (hc : db.cache = none) :
    Tri (Own (db.things ++ L)) (handleJson db) (fun r s => Own (r.1.things ++ L) s ∧ SOk r.1 ∧ (r.2 = false → r.1.cache = none)) := by
  refine Tri.bind t_askB fun _ => Tri.ite (fun _ => Tri.pure fun _ h1 => ⟨h1, h, fun _ => hc⟩) fun _ => ?_
  refine Tri.bind t_new fun c => ?_
  have h2 : SOk { db with cache := some (c, Lists.empty) } := ⟨h.lists, fun y hy => by cases hy; exact ⟨(fun _ h => by cases h), (fun _ h => by cases h)⟩⟩
  refine Tri.bind (Tri.perm (t_loadSection (L := L) (a := false) h2 rfl) fun i => ?_) fun r => ?_
  · simp only [slurm_things, hc, Lists.things, Lists.empty, Option.toList, List.flatMap_cons, List.flatMap_nil, List.append_nil, List.count_append, List.count_cons, List.count_nil]; omega
  obtain ⟨db1, e⟩ := r
  cases e with
  | true => exact Tri.pre fun hd => Tri.pure fun _ h1 => ⟨h1, hd.1, fun h => by cases h⟩
  | false =>
    refine Tri.pre fun hd => Tri.bind (t_loadSection (a := true) hd.1 hd.2) fun r => ?_
    obtain ⟨db2, e⟩ := r
    cases e with
    | true => exact Tri.pre fun hd => Tri.pure fun _ h1 => ⟨h1, hd.1, fun h => by cases h⟩
    | false =>
      refine Tri.pre fun hd => Tri.bind t_askB fun _ => Tri.ite (fun _ => Tri.pure fun _ h1 => ⟨h1, hd.1, fun h => by cases h⟩) fun _ => ?_
      exact Tri.bind (t_flushCache hd.1 hd.2) fun r => Tri.pure fun _ h1 => ⟨h1.1, h1.2.1, fun _ => h1.2.2⟩

theorem t_slurmFiles {L : List Id} : ∀ (n : Nat) {db : Slurm} (_ : SOk db) (_ : db.cache = none), Tri (Own (db.things ++ L)) (slurmFiles n db) (fun r s => Own (r.1.things ++ L) s ∧ SOk r.1)
  | 0, _, h, _ => Tri.bind t_askB fun _ => Tri.pure fun _ h1 => ⟨h1, h⟩
  | n + 1, db, h, hc => by
    refine Tri.bind t_create fun r => ?_
    cases r with
    | none => exact Tri.pure fun _ h1 => ⟨h1, h⟩
    | some root =>
      refine Tri.bind (Tri.perm (t_handleJson (L := root :: L) h hc) fun i => ?_) fun r => Tri.pre fun hd => ?_
      · simp only [Option.toList, List.count_append, List.count_cons, List.count_nil]; omega
      refine Tri.bind (Tri.perm (t_free (L := r.1.things ++ L)) fun i => ?_) fun _ => ?_
      · simp only [List.count_append, List.count_cons]; omega
      refine Tri.ite (fun _ => Tri.pure fun _ h1 => ⟨h1, hd.1⟩) fun he => t_slurmFiles n hd.1 (hd.2 (by simpa using he))

def optThings (x : Option Slurm) : List Id := x.toList.flatMap Slurm.things

theorem t_loadSlurmFiles {L : List Id} {csums : List Id} : Tri (Own (csums ++ L)) (loadSlurmFiles csums)
    (fun r s => Own (optThings r.2.1 ++ (r.2.2 ++ L)) s ∧ (∀ x ∈ r.2.1, SOk x) ∧ (r.1 = true → r.2.1 = none)) := by
  refine Tri.bind t_new fun self => Tri.bind t_askB fun _ => Tri.ite (fun _ => Tri.bind t_free fun _ => Tri.pure fun _ h => ⟨h, (fun _ h => by cases h), fun _ => rfl⟩) fun _ => ?_
  have h0 : SOk ⟨self, Lists.empty, none, csums⟩ := ⟨⟨(fun _ h => by cases h), (fun _ h => by cases h)⟩, (fun _ h => by cases h)⟩
  refine Tri.bind t_ask fun n => Tri.bind (Tri.perm (t_slurmFiles (L := L) n h0 rfl) fun i => ?_) fun r => Tri.pre fun hd => ?_
  · simp [slurm_things, Lists.things, Lists.empty]
  refine Tri.ite (fun _ => Tri.bind (t_slurmDestroy hd) fun _ => Tri.pure fun _ h => ⟨h, (fun _ h => by cases h), fun _ => rfl⟩) fun _ => ?_
  refine Tri.ite (fun _ => Tri.bind (t_slurmDestroy hd) fun _ => Tri.pure fun _ h => ⟨h, (fun _ h => by cases h), fun _ => rfl⟩) fun _ => ?_
  refine Tri.pure fun _ h => ⟨h.perm fun i => by simp [optThings], (fun x hx => by cases hx; exact hd), fun h => by cases h⟩

theorem t_loadChecksums {L : List Id} : ∀ (n : Nat) (l : List Id), Tri (Own (l ++ L)) (loadChecksums n l) (fun r => Own (r.toList.flatten ++ L))
  | 0, l => by
    refine Tri.bind t_askB fun _ => Tri.ite (fun _ => Tri.bind (t_freeAll l) fun _ => Tri.pure fun _ h => h) fun _ => Tri.pure fun _ h => ?_
    simpa using h
  | n + 1, l => by
    refine Tri.bind t_new fun c => Tri.bind t_askB fun _ => Tri.ite (fun _ => Tri.bind t_free fun _ => Tri.bind (t_freeAll l) fun _ => Tri.pure fun _ h => h) fun _ => t_loadChecksums n (c :: l)

theorem t_updateSlurm {L : List Id} {slurm : Option Slurm} (h : ∀ x ∈ slurm, SOk x) : Tri (Own (optThings slurm ++ L)) (updateSlurm slurm) (fun r s => Own (optThings r.1 ++ L) s ∧ ∀ x ∈ r.1, SOk x) := by
  refine Tri.bind t_ask fun n => Tri.bind (t_loadChecksums n []) fun r => ?_
  cases r with
  | none => exact Tri.pure fun _ h1 => ⟨h1, h⟩
  | some csums =>
    have e0 : ∀ i, (([csums].flatten ++ (optThings slurm ++ L)) : List Id).count i = (csums ++ (optThings slurm ++ L)).count i := fun i => by simp
    refine Tri.perm ?_ e0
    refine Tri.ite (fun he => ?_) fun _ => ?_
    · have : csums = [] := by simpa using he
      subst this
      exact Tri.bind (t_slurmDestroyOpt h) fun _ => Tri.pure fun _ h1 => ⟨h1, fun _ h => by cases h⟩
    refine Tri.bind t_askB fun b => Tri.ite (fun _ => ?_) fun _ => ?_
    · refine Tri.bind (t_useAll _ fun i hi => ?_) fun _ => Tri.bind (t_freeAll csums) fun _ => Tri.pure fun _ h1 => ⟨h1, h⟩
      obtain ⟨x, hx, hi⟩ := List.mem_flatMap.1 hi
      refine List.mem_append_right _ (List.mem_append_left _ ?_)
      exact List.mem_flatMap.2 ⟨x, hx, by simp [slurm_things, hi]⟩
    refine Tri.bind t_loadSlurmFiles fun r => Tri.pre fun hr => ?_
    obtain ⟨e, nw, cs⟩ := r
    refine Tri.bind (Tri.perm (t_freeAll (L := optThings nw ++ (optThings slurm ++ L)) cs) fun i => by simp only [List.count_append]; omega) fun _ => ?_
    refine Tri.ite (fun he => ?_) fun _ => ?_
    · have : nw = none := hr.2 he
      subst this
      exact Tri.pure fun _ h1 => ⟨h1, h⟩
    · refine Tri.bind (Tri.perm (t_slurmDestroyOpt (L := optThings nw ++ L) h) fun i => by show (optThings nw ++ (optThings slurm ++ L)).count i = (optThings slurm ++ (optThings nw ++ L)).count i; simp only [List.count_append]; omega) fun _ => Tri.pure fun _ h1 => ⟨h1, hr.1⟩

theorem t_slurmApply {L : List Id} {base : Table} {slurm : Option Slurm} (h : ∀ x ∈ slurm, SOk x) : Tri (Own (base.things ++ (optThings slurm ++ L))) (slurmApply base slurm)
    (fun r s => Own (r.1.things ++ (optThings r.2.1 ++ L)) s ∧ ∀ x ∈ r.2.1, SOk x) := by
  refine Tri.bind t_askB fun _ => Tri.ite (fun _ => Tri.pure fun _ h1 => ⟨h1, h⟩) fun _ => ?_
  refine Tri.bind (Tri.perm (t_updateSlurm (L := base.things ++ L) h) fun i => by simp only [List.count_append]; omega) fun r => Tri.pre fun hr => ?_
  obtain ⟨sl, e⟩ := r
  have hp : ∀ i, (optThings sl ++ (base.things ++ L)).count i = (base.things ++ (optThings sl ++ L)).count i := fun i => by simp only [List.count_append]; omega
  refine Tri.perm ?_ hp
  refine Tri.ite (fun _ => Tri.pure fun _ h1 => ⟨h1, hr⟩) fun _ => ?_
  cases sl with
  | none => exact Tri.pure fun _ h1 => ⟨h1, fun _ h => by cases h⟩
  | some db =>
    refine Tri.bind (t_use (by simp [optThings, slurm_things])) fun _ => ?_
    exact Tri.bind t_ask fun n => Tri.bind (t_removeRows n base) fun base => Tri.bind t_ask fun m => Tri.bind (t_addRows m base) fun base => Tri.pure fun _ h1 => ⟨h1, hr⟩

/-! ### The state -/

/-- The history is within its bounds; the counters of the SLURM are fine. -/
structure Ok (lifetime : Nat) (st : Srv) : Prop where
  slurm : ∀ x ∈ st.slurm, SOk x
  len : st.deltas.length ≤ lifetime
  last : st.deltas ≠ [] → st.last < st.deltas.length

theorem count_set {l : List Id} {k : Nat} {old : Id} (h : l[k]? = some old) (d i : Id) : (l.set k d).count i + [old].count i = l.count i + [d].count i := by
  induction l generalizing k with
  | nil => simp at h
  | cons x l ih =>
    cases k with
    | zero =>
      simp at h; subst h
      simp only [List.set_cons_zero, List.count_cons, List.count_nil]; omega
    | succ k =>
      have := ih (k := k) (by simpa using h)
      simp only [List.set_cons_succ, List.count_cons, List.count_nil] at this ⊢; omega

theorem t_darrayAdd {L : List Id} {lifetime : Nat} (h0 : 0 < lifetime) {deltas : List Id} {last : Nat} {d : Id} (hl : deltas.length ≤ lifetime) (hlast : deltas ≠ [] → last < deltas.length) :
    Tri (Own (d :: deltas ++ L)) (darrayAdd lifetime deltas last d) (fun r s => Own (r.1 ++ L) s ∧ r.1.length ≤ lifetime ∧ (r.1 ≠ [] → r.2 < r.1.length)) := by
  refine Tri.ite (fun h => Tri.pure fun _ h1 => ⟨h1.perm fun i => ?_, ?_, fun _ => ?_⟩) fun h => ?_
  · simp only [List.count_append, List.count_cons, List.count_nil]; omega
  · rw [List.length_append]; simp; omega
  · rw [List.length_append]; simp
  · have hne : deltas ≠ [] := fun e => by rw [e] at h; simp at h; omega
    have hlt := hlast hne
    have hpos : 0 < deltas.length := List.length_pos_of_ne_nil hne
    have hf : (if last = deltas.length - 1 then 0 else last + 1) < deltas.length := by
      by_cases e : last = deltas.length - 1
      · rw [if_pos e]; exact hpos
      · rw [if_neg e]; omega
    generalize hk : (if last = deltas.length - 1 then 0 else last + 1) = k at hf
    have hget : deltas[k]? = some deltas[k] := List.getElem?_eq_getElem hf
    have key : Tri (Own (d :: deltas ++ L)) (do free deltas[k]; return (deltas.set k d, k) : HM (List Id × Nat)) (fun r s => Own (r.1 ++ L) s ∧ r.1.length ≤ lifetime ∧ (r.1 ≠ [] → r.2 < r.1.length)) := by
      refine Tri.bind (Tri.perm (t_free (L := deltas.set k d ++ L)) fun i => ?_) fun _ => Tri.pure fun _ h1 => ⟨h1, by simpa using hl, fun _ => by simpa using hf⟩
      have := count_set hget d i
      simp only [List.count_append, List.count_cons, List.count_nil] at this ⊢; omega
    simp only [hget]
    exact key

theorem srv_things (st : Srv) : st.things = tableThings st.base ++ st.deltas ++ optThings st.slurm := rfl

theorem tableThings_some (t : Table) : tableThings (some t) = t.things := by simp [tableThings]

theorem t_vrpsUpdate {lifetime : Nat} (h0 : 0 < lifetime) {st : Srv} (h : Ok lifetime st) : Tri (Own st.things) (vrpsUpdate lifetime st) (fun r s => Own r.things s ∧ Ok lifetime r) := by
  refine Tri.bind t_performValidation fun r => ?_
  cases r with
  | none => exact Tri.pure fun _ h1 => ⟨h1, h⟩
  | some base =>
    refine Tri.bind (Tri.perm (t_slurmApply (L := tableThings st.base ++ st.deltas) h.slurm) fun i => ?_) fun r => Tri.pre fun hr => ?_
    · rw [tableThings_some, srv_things]; simp only [List.count_append]; omega
    obtain ⟨base, slurm, e⟩ := r
    have hok : Ok lifetime { st with slurm := slurm } := ⟨hr, h.len, h.last⟩
    have hdrop : Tri (Own (base.things ++ (optThings slurm ++ (tableThings st.base ++ st.deltas)))) (do tableDestroy (some base); return { st with slurm := slurm } : HM Srv) (fun r s => Own r.things s ∧ Ok lifetime r) := by
      refine Tri.bind (Tri.perm (t_tableDestroy (L := ({ st with slurm := slurm } : Srv).things) (some base)) fun i => ?_) fun _ => Tri.pure fun _ h1 => ⟨h1, hok⟩
      simp only [tableThings_some, srv_things, List.count_append]; omega
    refine Tri.ite (fun _ => hdrop) fun _ => ?_
    refine Tri.bind (t_useAll _ fun i hi => List.mem_append_left _ hi) fun _ => ?_
    cases hb : st.base with
    | none =>
      refine Tri.pure fun s h1 => ⟨h1.perm fun i => ?_, ⟨hr, h.len, h.last⟩⟩
      rw [srv_things, tableThings_some]
      show (base.things ++ (optThings slurm ++ ([] ++ st.deltas))).count i = (base.things ++ st.deltas ++ optThings slurm).count i
      simp only [List.count_append, List.count_nil]; omega
    | some old =>
      rw [hb] at hdrop
      refine Tri.bind (Q := fun r => Own (r.toList ++ (base.things ++ (optThings slurm ++ (tableThings (some old) ++ st.deltas))))) ?_ fun r => ?_
      · refine Tri.bind t_new fun d => Tri.bind (t_useAll _ fun i hi => ?_) fun _ => Tri.bind (t_useAll _ fun i hi => ?_) fun _ => Tri.bind t_askB fun _ =>
          Tri.ite (fun _ => Tri.bind t_free fun _ => Tri.pure fun _ h => h) fun _ => Tri.pure fun _ h => h
        · rw [tableThings_some]; simp [hi]
        · simp [hi]
      cases r with
      | none =>
        exact hdrop
      | some d =>
        refine Tri.bind (Tri.perm (t_darrayAdd (L := tableThings (some old) ++ (base.things ++ optThings slurm)) h0 h.len h.last) fun i => ?_) fun r => Tri.pre fun hd => ?_
        · simp only [Option.toList, List.count_append, List.count_cons, List.count_nil]; omega
        refine Tri.bind (Tri.perm (t_tableDestroy (L := ({ base := some base, deltas := r.1, last := r.2, slurm := slurm } : Srv).things) (some old)) fun i => ?_) fun _ => Tri.pure fun _ h1 => ⟨h1, ⟨hr, hd.1, hd.2⟩⟩
        simp only [srv_things, tableThings_some, List.count_append]; omega

theorem t_cycles {lifetime : Nat} (h0 : 0 < lifetime) : ∀ (n : Nat) {st : Srv} (_ : Ok lifetime st), Tri (Own st.things) (cycles lifetime n st) (fun r s => Own r.things s ∧ Ok lifetime r)
  | 0, _, h => Tri.pure fun _ h1 => ⟨h1, h⟩
  | n + 1, _, h => Tri.bind (t_vrpsUpdate h0 h) fun _ => Tri.pre fun hr => t_cycles h0 n hr

theorem t_vrpsDestroy {lifetime : Nat} {st : Srv} (h : Ok lifetime st) : Tri (Own st.things) (vrpsDestroy st) (fun _ => Own []) := by
  refine Tri.bind (Tri.perm (t_slurmDestroyOpt (L := st.deltas ++ tableThings st.base) h.slurm) fun i => ?_) fun _ => Tri.bind (t_freeAll st.deltas) fun _ => Tri.perm (t_tableDestroy (L := []) st.base) fun i => by simp
  show (st.things).count i = (optThings st.slurm ++ (st.deltas ++ tableThings st.base)).count i
  rw [srv_things]; simp only [List.count_append]; omega

theorem ok_init (lifetime : Nat) : Ok lifetime Srv.init := ⟨(fun _ h => by cases h), Nat.zero_le _, fun h => absurd rfl h⟩

end Verif.Upd
