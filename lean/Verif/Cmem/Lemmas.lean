import Verif.Cmem.Model
import Verif.Heap.Lost
/-
Lemmas for Verif/Cmem/Props.lean.
-/
namespace Verif.Cmem
open Verif.Heap

abbrev objs (c : Cfg) : List Id := c.flatMap Val.objs

theorem t_freeP {L : List Id} (p : Ptr) : Tri (Own (p.toList ++ L)) (freeP p) (fun _ => Own L) := by
  cases p with
  | none => exact Tri.pure fun _ h => h
  | some i => exact t_free

theorem t_loseP {L : List Id} (p : Ptr) : Tri (Own (p.toList ++ L)) (loseP p) (fun _ => Own L) := by
  cases p with
  | none => exact Tri.pure fun _ h => h
  | some i => exact t_lose

theorem t_dups {L : List Id} : ∀ n, Tri (Own L) (dups n) (fun l => Own (l ++ L))
  | 0 => Tri.pure fun _ h => h
  | n + 1 => Tri.bind t_new fun x => Tri.bind (t_dups n) fun l => Tri.pure fun _ h => h.perm fun i => by
      simp only [List.count_append, List.count_cons]; omega

theorem t_freeVal {L : List Id} (v : Val) : Tri (Own (v.objs ++ L)) (freeVal v) (fun v' s => Own L s ∧ v'.objs = []) := by
  cases v with
  | str p => exact Tri.bind (t_freeP p) fun _ => Tri.pure fun _ h => ⟨h, rfl⟩
  | arr p l =>
    refine Tri.bind (Q := fun _ => Own (p.toList ++ L)) ?_ fun _ => Tri.bind (t_freeP p) fun _ => Tri.pure fun _ h => ⟨h, rfl⟩
    have := t_freeAll (L := p.toList ++ L) l
    simpa [Val.objs] using this

/-- The value before is replaced by the one after. -/
abbrev Repl (v : Val) (m : HM (Bool × Val)) : Prop := ∀ L, Tri (Own (v.objs ++ L)) m (fun r => Own (r.2.objs ++ L))

theorem t_strArgv (v : Val) (e : Bool) : Repl v (strArgv v e) := fun L =>
  Tri.ite (fun _ => Tri.pure fun _ h => h) fun _ =>
    Tri.bind (t_freeVal v) fun _ => Tri.pre fun _ => Tri.bind t_new fun x => Tri.pure fun _ h => h

theorem t_newArr {L : List Id} (n : Nat) : Tri (Own L) (do let a ← new; let l ← dups n; return (true, Val.arr (some a) l) : HM (Bool × Val)) (fun r => Own (r.2.objs ++ L)) :=
  Tri.bind t_new fun a => Tri.bind (t_dups n) fun l => Tri.pure fun _ h => h.perm fun i => by
    simp only [Val.objs, Option.toList, List.count_append, List.count_cons, List.count_nil]; omega

theorem t_strJson (o : Opt) (v : Val) (j : Json) (hv : ∃ p, v = .str p) : Repl v (strJson o v j) := fun L => by
  obtain ⟨p, rfl⟩ := hv
  cases j with
  | null =>
    refine Tri.ite (fun _ => ?_) fun _ => Tri.pure fun _ h => h
    exact Tri.bind (t_loseP p) fun _ => Tri.pure fun _ h => h
  | string e => exact t_strArgv _ e L
  | array n b => exact Tri.pure fun _ h => h
  | other => exact Tri.pure fun _ h => h

theorem t_arrArgv (o : Opt) (v : Val) (n : Nat) : Repl v (arrArgv o v n) := fun L => by
  refine Tri.bind (t_freeVal v) fun v' => ?_
  refine Tri.ite (fun _ => Tri.pure fun s h => ?_) fun _ => ?_
  · show Own (v'.objs ++ L) s
    rw [h.2]; exact h.1
  · exact (t_newArr n).weaken (fun _ h => h.1) fun _ _ h => h

theorem t_arrJson (o : Opt) (v : Val) (j : Json) : Repl v (arrJson o v j) := fun L => by
  cases j with
  | null => exact Tri.pure fun _ h => h
  | string e => exact Tri.pure fun _ h => h
  | other => exact Tri.pure fun _ h => h
  | array n b =>
    refine Tri.ite (fun _ => ?_) fun _ => Tri.ite (fun _ => Tri.pure fun _ h => h) fun _ => Tri.ite (fun _ => ?_) fun _ => Tri.pure fun _ h => h
    · refine Tri.bind (t_freeVal v) fun v' => Tri.pure fun s h => ?_
      show Own (v'.objs ++ L) s
      rw [h.2]; exact h.1
    · exact Tri.bind (t_freeVal v) fun _ => Tri.pre fun _ => t_newArr n

theorem t_parseArgv (o : Opt) (v : Val) (t : Text) : Repl v (parseArgv o v t) := by
  cases v with
  | str p => exact t_strArgv _ _
  | arr p l => exact t_arrArgv _ _ _

theorem t_parseJson (o : Opt) (v : Val) (j : Json) : Repl v (parseJson o v j) := by
  cases v with
  | str p => exact t_strJson _ _ _ ⟨p, rfl⟩
  | arr p l => exact t_arrJson _ _ _

theorem objs_set (c : Cfg) (i : Nat) (v : Val) (h : c[i]? = some v) : ∃ R, (∀ x, (objs c).count x = (v.objs ++ R).count x) ∧
    ∀ v' x, (objs (c.set i v')).count x = (v'.objs ++ R).count x := by
  induction c generalizing i with
  | nil => simp at h
  | cons a c ih =>
    cases i with
    | zero =>
      simp at h; subst h
      exact ⟨objs c, fun x => by simp [objs], fun v' x => by simp [objs]⟩
    | succ i =>
      obtain ⟨R, hR, hR'⟩ := ih i (by simpa using h)
      refine ⟨a.objs ++ R, fun x => ?_, fun v' x => ?_⟩
      · have := hR x
        simp only [objs, List.flatMap_cons, List.count_append] at this ⊢
        omega
      · have := hR' v' x
        simp only [objs, List.set_cons_succ, List.flatMap_cons, List.count_append] at this ⊢
        omega

theorem t_update (os : List Opt) (c : Cfg) (i : Nat) (k : Opt → Val → HM (Bool × Val)) (hk : ∀ o v, Repl v (k o v)) (L : List Id) :
    Tri (Own (objs c ++ L)) (update os c i k) (fun r => Own (objs r.2 ++ L)) := by
  unfold update
  cases ho : os[i]? with
  | none => exact Tri.pure fun _ h => h
  | some o =>
    cases hv : c[i]? with
    | none => exact Tri.pure fun _ h => h
    | some v =>
      obtain ⟨R, hR, hR'⟩ := objs_set c i v hv
      refine Tri.bind ((hk o v (R ++ L)).perm fun x => ?_) fun r => Tri.pure fun _ h => h.perm fun x => ?_
      · have := hR x
        simp only [List.count_append] at this ⊢; omega
      · have := hR' r.2 x
        simp only [List.count_append] at this ⊢; omega

theorem t_name {L : List Id} {β : Type} {k : HM β} {Q : β → H → Prop} (h : Tri (Own L) k Q) : Tri (Own L) (do let n ← new; use n; free n; k : HM β) Q :=
  Tri.bind t_new fun _ => Tri.bind (t_use List.mem_cons_self) fun _ => Tri.bind t_free fun _ => h

theorem t_jsonToConfig (os : List Opt) (L : List Id) : ∀ (l : List (Option (Nat × Json) × Bool)) (c : Cfg), Tri (Own (objs c ++ L)) (jsonToConfig os c l) (fun r => Own (objs r.2 ++ L))
  | [], _ => Tri.pure fun _ h => h
  | (some (i, j), b) :: l, c => t_name (Tri.bind (t_update os c i _ (fun o v => t_parseJson o v j) L) fun r =>
      Tri.ite (fun _ => t_jsonToConfig os L l r.2) fun _ => Tri.pure fun _ h => h)
  | (none, b) :: l, c => t_name (Tri.ite (fun _ => t_jsonToConfig os L l c) fun _ => Tri.pure fun _ h => h)

theorem t_setFromFile (os : List Opt) (c : Cfg) (f) (L : List Id) : Tri (Own (objs c ++ L)) (setFromFile os c f) (fun r => Own (objs r.2 ++ L)) := by
  cases f with
  | none => exact Tri.pure fun _ h => h
  | some l =>
    refine Tri.bind t_new fun root => Tri.bind ((t_jsonToConfig os (root :: L) l c).perm fun x => ?_) fun r => Tri.bind (t_free.perm (L := root :: (objs r.2 ++ L)) fun x => ?_) fun _ => Tri.pure fun _ h => h
    · simp only [List.count_append, List.count_cons]; omega
    · simp only [List.count_append, List.count_cons]; omega

theorem t_handleArgs (os : List Opt) (L : List Id) : ∀ (l : List Arg) (c : Cfg), Tri (Own (objs c ++ L)) (handleArgs os c l) (fun r => Own (objs r.2 ++ L))
  | [], _ => Tri.pure fun _ h => h
  | .opt i t :: l, c => Tri.bind (t_update os c i _ (fun o v => t_parseArgv o v t) L) fun r =>
      Tri.ite (fun _ => t_handleArgs os L l r.2) fun _ => Tri.pure fun _ h => h
  | .other ok :: l, c => Tri.ite (fun _ => t_handleArgs os L l c) fun _ => Tri.pure fun _ h => h
  | .file f :: l, c => Tri.bind (t_setFromFile os c f L) fun r => Tri.ite (fun _ => t_handleArgs os L l r.2) fun _ => Tri.pure fun _ h => h

theorem t_setDefault (L : List Id) (d : Dflt) : Tri (Own L) (setDefault d) (fun v => Own (v.objs ++ L)) := by
  cases d with
  | null => exact Tri.pure fun _ h => h
  | string => exact Tri.bind t_new fun x => Tri.pure fun _ h => h
  | strings n =>
    refine Tri.ite (fun _ => Tri.pure fun _ h => h) fun _ => Tri.bind t_new fun a => Tri.bind (t_dups n) fun l => Tri.pure fun _ h => h.perm fun i => ?_
    simp only [Val.objs, Option.toList, List.count_append, List.count_cons, List.count_nil]; omega

theorem t_setDefaults (L : List Id) : ∀ os, Tri (Own L) (setDefaults os) (fun c => Own (objs c ++ L))
  | [] => Tri.pure fun _ h => h
  | o :: os => Tri.bind (t_setDefault L o.dflt) fun v => Tri.bind (t_setDefaults (v.objs ++ L) os) fun c => Tri.pure fun _ h => h.perm fun x => by
      simp only [objs, List.flatMap_cons, List.count_append]; omega

theorem t_getPayload (L : List Id) (b : Bool) : Tri (Own L) (getPayload b) (fun p => Own (p.toList ++ L)) :=
  Tri.ite (fun _ => Tri.bind t_new fun x => Tri.pure fun _ h => h) fun _ => Tri.pure fun _ h => h

theorem t_freeConfig (p : Ptr) (L : List Id) : ∀ c, Tri (Own (objs c ++ (p.toList ++ L))) (freeConfig c p) (fun _ => Own L)
  | [] => t_freeP p
  | v :: c => by
    refine Tri.bind (((t_freeVal (L := objs c ++ (p.toList ++ L)) v)).perm fun x => ?_) fun _ => Tri.pre fun _ => t_freeConfig p L c
    simp only [objs, List.flatMap_cons, List.count_append]; omega

theorem t_handleFlags (os : List Opt) (args : List Arg) (hasPayload valid : Bool) :
    Tri (Own []) (handleFlags os args hasPayload valid) (fun r => Own (match r with | none => [] | some c => objs c.1 ++ c.2.toList)) := by
  unfold handleFlags
  refine Tri.bind (t_setDefaults [] os) fun c0 => Tri.bind t_new fun long => Tri.bind t_new fun short => ?_
  refine Tri.bind (t_useAll _ (by intro i hi; simp at hi; rcases hi with rfl | rfl <;> simp)) fun _ => ?_
  refine Tri.bind ((t_handleArgs os [long, short] args c0).perm fun x => ?_) fun r => ?_
  · simp only [List.count_append, List.count_cons, List.count_nil]; omega
  · refine Tri.ite (fun _ => ?_) fun _ => ?_
    · refine Tri.bind ((t_freeConfig none [long, short] r.2).perm fun x => rfl) fun _ => Tri.bind (Q := fun _ => Own []) ?_ fun _ => Tri.pure fun _ h => h
      exact t_freeAll (L := []) [long, short]
    · refine Tri.bind (Q := fun (p : Ptr) => Own (objs r.2 ++ (p.toList ++ [long, short]))) ?_ fun p => ?_
      · refine (t_getPayload _ _).weaken (fun _ h => h) fun p _ h => h.perm fun i => ?_
        simp only [List.count_append]; omega
      · refine Tri.bind (t_useAll _ fun i hi => List.mem_append_left _ hi) fun _ => Tri.ite (fun _ => ?_) fun _ => ?_
        · refine Tri.bind (Q := fun _ => Own (objs r.2 ++ (p.toList ++ [long, short]))) ?_ fun _ => Tri.bind (Q := fun _ => Own (objs r.2 ++ p.toList)) ?_ fun _ => Tri.pure fun _ h => h
          · exact Tri.bind (t_useAll _ fun i hi => List.mem_append_left _ hi) fun _ => t_useAll _ fun i hi => List.mem_append_right _ (List.mem_append_left _ hi)
          · refine (t_freeAll (L := objs r.2 ++ p.toList) [long, short]).perm fun x => ?_
            simp only [List.count_append]; omega
        · refine Tri.bind (t_freeConfig p [long, short] r.2) fun _ => Tri.bind (Q := fun _ => Own []) ?_ fun _ => Tri.pure fun _ h => h
          exact t_freeAll (L := []) [long, short]

theorem t_program (os : List Opt) (args : List Arg) (hasPayload valid : Bool) (times : Nat) :
    Tri (Own []) (program os args hasPayload valid times) (fun _ => Own []) := by
  unfold program
  refine Tri.bind (t_handleFlags os args hasPayload valid) fun r => ?_
  cases r with
  | none => exact Tri.pure fun _ h => h
  | some c =>
    refine Tri.bind (t_useAll _ fun i hi => ?_) fun _ => (t_freeConfig c.2 [] c.1).perm fun x => ?_
    · obtain ⟨l, hl, hi⟩ := List.mem_flatten.1 hi
      rw [List.mem_replicate] at hl
      rw [hl.2] at hi
      exact List.mem_append_left _ hi
    · simp only [List.append_nil]

end Verif.Cmem
