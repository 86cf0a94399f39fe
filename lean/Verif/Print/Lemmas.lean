import Verif.Print.Spec
/-
Printers, compositionally.
-/
namespace Verif.Print
open Verif.Res (Byte)

/-- Filling a container that has `cur` nodes already, inside of something with `held` more. -/
def Fills (e : Env) (held cur : Nat) (b : B) (doc : Option J) : Prop :=
  ∀ s : St, ∃ r s', b e s = .ret r s' ∧ (∀ j, r = some j → doc = some j) ∧ (e.Plenty → r = doc) ∧
    s'.live = s.live - cur + (match r with | some j => (j.nodes : Int) | none => -(held : Int))

theorem prints_static (e : Env) (j : J) (h : j.nodes = 0) : Prints (static j) e (some j) := by
  intro s
  exact ⟨some j, s, rfl, fun _ h => h, fun _ => rfl, by simp [h]⟩

theorem prints_fail (e : Env) : Prints fail e none := by
  intro s
  exact ⟨none, s, rfl, fun _ h => h, fun _ => rfl, by simp⟩

theorem prints_alloc (e : Env) (j : J) (h : j.nodes = 1) : Prints (alloc1 j) e (some j) := by
  intro s
  unfold alloc1
  cases ha : e.alloc s.n with
  | true => exact ⟨some j, _, by simp only [if_true]; rfl, fun _ h => h, fun _ => rfl, by simp [h]⟩
  | false => exact ⟨none, _, by simp only [Bool.false_eq_true, if_false]; rfl, (fun _ h => by cases h), fun hp => absurd (hp s.n) (by simp [ha]), by simp⟩

theorem prints_int (e : Env) (i : Int) : Prints (intNew i) e (some (.int i)) := prints_alloc e _ (by simp [J.nodes])

theorem prints_str (e : Env) (t : List Byte) : Prints (strNew t) e (text e t) := by
  unfold text
  cases h : e.utf8 t with
  | true =>
    intro s
    have := prints_alloc e (.str t) (by simp [J.nodes]) s
    simpa only [strNew, h, if_true] using this
  | false =>
    intro s
    exact ⟨none, s, by simp [strNew, h], (fun _ h => by cases h), fun _ => by simp, by simp⟩

theorem nodesF_append (a b : List (String × J)) : nodesF (a ++ b) = nodesF a + nodesF b := by
  induction a with
  | nil => simp [nodesF]
  | cons x a ih => obtain ⟨k, j⟩ := x; simp only [List.cons_append, nodesF, ih]; omega

theorem nodesL_append (a b : List J) : nodesL (a ++ b) = nodesL a + nodesL b := by
  induction a with
  | nil => simp [nodesL]
  | cons x a ih => simp only [List.cons_append, nodesL, ih]; omega

/-- A list of members, with what's expected of each. -/
inductive Members (e : Env) : List (String × B) → List (String × Option J) → Prop
  | nil : Members e [] []
  | cons (k : String) (b : B) (o : Option J) (l : List (String × B)) (os : List (String × Option J)) (h : Prints b e o) (t : Members e l os) :
    Members e ((k, b) :: l) ((k, o) :: os)

theorem fillObj_ok (e : Env) (held : Nat) (l : List (String × B)) (os : List (String × Option J)) (h : Members e l os) :
    ∀ done, Fills e held (J.obj done).nodes (fillObj held done l) ((allMembers os).map (fun ms => .obj (done ++ ms))) := by
  induction h with
  | nil =>
    intro done s
    exact ⟨some (.obj done), s, rfl, fun j h => by simpa [allMembers] using h, fun _ => by simp [allMembers], by simp⟩
  | cons k b o l os hb _ ih =>
    intro done s
    obtain ⟨r, s1, h1, h2, h3, h4⟩ := hb s
    cases r with
    | none =>
      refine ⟨none, _, by simp only [fillObj, h1, drop]; rfl, (fun _ h => by cases h), ?_, ?_⟩
      · intro hp
        rw [← h3 hp]
        rfl
      · simp only [] at h4 ⊢
        omega
    | some j =>
      have ho := h2 j rfl
      subst ho
      cases ha : e.alloc s1.n with
      | false =>
        refine ⟨none, _, by simp only [fillObj, h1, ha, Bool.false_eq_true, if_false, drop]; rfl, (fun _ h => by cases h), fun hp => absurd (hp s1.n) (by simp [ha]), ?_⟩
        simp only [] at h4 ⊢
        omega
      | true =>
        obtain ⟨r2, s2, g1, g2, g3, g4⟩ := ih (done ++ [(k, j)]) ⟨s1.n + 1, s1.live⟩
        have hdoc : ∀ ms : Option (List (String × J)), Option.map (fun ms => J.obj (done ++ ms)) (ms.map ((k, j) :: ·)) = ms.map (fun ms => J.obj ((done ++ [(k, j)]) ++ ms)) := by
          intro ms; cases ms <;> simp
        refine ⟨r2, s2, by simp only [fillObj, h1, ha, if_true]; exact g1, ?_, ?_, ?_⟩
        · intro j' hj'
          rw [show allMembers ((k, some j) :: os) = (allMembers os).map ((k, j) :: ·) from rfl, hdoc]
          exact g2 j' hj'
        · intro hp
          rw [show allMembers ((k, some j) :: os) = (allMembers os).map ((k, j) :: ·) from rfl, hdoc]
          exact g3 hp
        · have : (J.obj (done ++ [(k, j)])).nodes = (J.obj done).nodes + j.nodes := by simp [J.nodes, nodesF_append, nodesF]; omega
          simp only [] at h4 g4 ⊢
          rw [this] at g4
          omega

theorem prints_obj (e : Env) (l : List (String × B)) (os : List (String × Option J)) (h : Members e l os) : Prints (objB l) e (object os) := by
  intro s
  unfold objB objNew alloc1
  cases ha : e.alloc s.n with
  | false =>
    exact ⟨none, _, by simp only [Bool.false_eq_true, if_false]; rfl, (fun _ h => by cases h), fun hp => absurd (hp s.n) (by simp [ha]), by simp⟩
  | true =>
    obtain ⟨r, s1, h1, h2, h3, h4⟩ := fillObj_ok e 0 l os h [] ⟨s.n + 1, s.live + 1⟩
    refine ⟨r, s1, by simp only [if_true]; exact h1, ?_, ?_, ?_⟩
    · intro j hj; have := h2 j hj; simpa [object] using this
    · intro hp; have := h3 hp; simpa [object] using this
    · rw [h4]
      simp only [J.nodes, nodesF]
      cases r <;> simp <;> omega

/-- A list of elements, with what's expected of each. -/
inductive Elems (e : Env) : List B → List (Option J) → Prop
  | nil : Elems e [] []
  | cons (b : B) (o : Option J) (l : List B) (os : List (Option J)) (h : Prints b e o) (t : Elems e l os) : Elems e (b :: l) (o :: os)

theorem elems_map {α : Type} (e : Env) (f : α → B) (g : α → Option J) (l : List α) (h : ∀ a ∈ l, Prints (f a) e (g a)) : Elems e (l.map f) (l.map g) := by
  induction l with
  | nil => exact .nil
  | cons a l ih => exact .cons _ _ _ _ (h a (by simp)) (ih (fun x hx => h x (by simp [hx])))

theorem fillArr_ok (e : Env) (held : Nat) (l : List B) (os : List (Option J)) (h : Elems e l os) :
    ∀ done, Fills e held (J.arr done).nodes (fillArr held done l) ((all os).map (fun ms => .arr (done ++ ms))) := by
  induction h with
  | nil =>
    intro done s
    exact ⟨some (.arr done), s, rfl, fun j h => by simpa [all] using h, fun _ => by simp [all], by simp⟩
  | cons b o l os hb _ ih =>
    intro done s
    obtain ⟨r, s1, h1, h2, h3, h4⟩ := hb s
    cases r with
    | none =>
      refine ⟨none, _, by simp only [fillArr, h1, drop]; rfl, (fun _ h => by cases h), ?_, ?_⟩
      · intro hp
        rw [← h3 hp]
        rfl
      · simp only [] at h4 ⊢
        omega
    | some j =>
      have ho := h2 j rfl
      subst ho
      cases ha : e.alloc s1.n with
      | false =>
        refine ⟨none, _, by simp only [fillArr, h1, ha, Bool.false_eq_true, if_false, drop]; rfl, (fun _ h => by cases h), fun hp => absurd (hp s1.n) (by simp [ha]), ?_⟩
        simp only [] at h4 ⊢
        omega
      | true =>
        obtain ⟨r2, s2, g1, g2, g3, g4⟩ := ih (done ++ [j]) ⟨s1.n + 1, s1.live⟩
        have hdoc : ∀ ms : Option (List J), Option.map (fun ms => J.arr (done ++ ms)) (ms.map (j :: ·)) = ms.map (fun ms => J.arr ((done ++ [j]) ++ ms)) := by
          intro ms; cases ms <;> simp
        refine ⟨r2, s2, by simp only [fillArr, h1, ha, if_true]; exact g1, ?_, ?_, ?_⟩
        · intro j' hj'
          rw [show all (some j :: os) = (all os).map (j :: ·) from rfl, hdoc]
          exact g2 j' hj'
        · intro hp
          rw [show all (some j :: os) = (all os).map (j :: ·) from rfl, hdoc]
          exact g3 hp
        · have : (J.arr (done ++ [j])).nodes = (J.arr done).nodes + j.nodes := by simp [J.nodes, nodesL_append, nodesL]; omega
          simp only [] at h4 g4 ⊢
          rw [this] at g4
          omega

theorem prints_arr (e : Env) (l : List B) (os : List (Option J)) (h : Elems e l os) : Prints (arrB l) e (array os) := by
  intro s
  unfold arrB arrayNew alloc1
  cases ha : e.alloc s.n with
  | false =>
    exact ⟨none, _, by simp only [Bool.false_eq_true, if_false]; rfl, (fun _ h => by cases h), fun hp => absurd (hp s.n) (by simp [ha]), by simp⟩
  | true =>
    obtain ⟨r, s1, h1, h2, h3, h4⟩ := fillArr_ok e 0 l os h [] ⟨s.n + 1, s.live + 1⟩
    refine ⟨r, s1, by simp only [if_true]; exact h1, ?_, ?_, ?_⟩
    · intro j hj; have := h2 j hj; simpa [array] using this
    · intro hp; have := h3 hp; simpa [array] using this
    · rw [h4]
      simp only [J.nodes, nodesL]
      cases r <;> simp <;> omega

/-- A list of rows, with what's expected of each. -/
inductive Rows (e : Env) : List (List (String × B)) → List (Option J) → Prop
  | nil : Rows e [] []
  | cons (r : List (String × B)) (os : List (String × Option J)) (l : List (List (String × B))) (ls : List (Option J)) (h : Members e r os) (t : Rows e l ls) :
    Rows e (r :: l) (object os :: ls)

theorem rows_map {α : Type} (e : Env) (f : α → List (String × B)) (g : α → List (String × Option J)) (l : List α) (h : ∀ a ∈ l, Members e (f a) (g a)) :
    Rows e (l.map f) (l.map (fun a => object (g a))) := by
  induction l with
  | nil => exact .nil
  | cons a l ih => exact .cons _ _ _ _ (h a (by simp)) (ih (fun x hx => h x (by simp [hx])))

theorem fillRows_ok (e : Env) (held : Nat) (l : List (List (String × B))) (os : List (Option J)) (h : Rows e l os) :
    ∀ done, Fills e held (J.arr done).nodes (fillRows held done l) ((all os).map (fun ms => .arr (done ++ ms))) := by
  induction h with
  | nil =>
    intro done s
    exact ⟨some (.arr done), s, rfl, fun j h => by simpa [all] using h, fun _ => by simp [all], by simp⟩
  | cons row mos l ls hr _ ih =>
    intro done s
    cases ha : e.alloc s.n with
    | false =>
      refine ⟨none, _, by simp only [fillRows, objNew, alloc1, ha, Bool.false_eq_true, if_false, drop]; rfl, (fun _ h => by cases h), fun hp => absurd (hp s.n) (by simp [ha]), ?_⟩
      simp only []
      omega
    | true =>
      cases ha2 : e.alloc (s.n + 1) with
      | false =>
        refine ⟨none, _, by simp only [fillRows, objNew, alloc1, ha, ha2, Bool.false_eq_true, if_false, if_true, drop]; rfl, (fun _ h => by cases h), fun hp => absurd (hp (s.n + 1)) (by simp [ha2]), ?_⟩
        simp only [J.nodes, nodesF]
        omega
      | true =>
        obtain ⟨r, s1, h1, h2, h3, h4⟩ := fillObj_ok e (held + (J.arr done).nodes) row mos hr [] ⟨s.n + 1 + 1, s.live + 1⟩
        cases r with
        | none =>
          refine ⟨none, s1, by simp only [fillRows, objNew, alloc1, ha, ha2, if_true, h1], (fun _ h => by cases h), ?_, ?_⟩
          · intro hp
            have := h3 hp
            unfold object
            cases hm : allMembers mos with
            | none => rfl
            | some ms => rw [hm] at this; cases this
          · simp only [J.nodes, nodesF] at h4 ⊢
            omega
        | some j =>
          have ho : object mos = some j := by have := h2 j rfl; simpa [object] using this
          rw [ho]
          obtain ⟨r2, s2, g1, g2, g3, g4⟩ := ih (done ++ [j]) s1
          have hdoc : ∀ ms : Option (List J), Option.map (fun ms => J.arr (done ++ ms)) (ms.map (j :: ·)) = ms.map (fun ms => J.arr ((done ++ [j]) ++ ms)) := by
            intro ms; cases ms <;> simp
          refine ⟨r2, s2, by simp only [fillRows, objNew, alloc1, ha, ha2, if_true, h1]; exact g1, ?_, ?_, ?_⟩
          · intro j' hj'
            rw [show all (some j :: ls) = (all ls).map (j :: ·) from rfl, hdoc]
            exact g2 j' hj'
          · intro hp
            rw [show all (some j :: ls) = (all ls).map (j :: ·) from rfl, hdoc]
            exact g3 hp
          · have : (J.arr (done ++ [j])).nodes = (J.arr done).nodes + j.nodes := by simp [J.nodes, nodesL_append, nodesL]; omega
            have he : (J.obj []).nodes = 1 := by simp [J.nodes, nodesF]
            simp only [he] at h4 g4 ⊢
            rw [this] at g4
            omega

theorem prints_rows (e : Env) (l : List (List (String × B))) (os : List (Option J)) (h : Rows e l os) : Prints (rowsB l) e (array os) := by
  intro s
  unfold rowsB arrayNew alloc1
  cases ha : e.alloc s.n with
  | false =>
    exact ⟨none, _, by simp only [Bool.false_eq_true, if_false]; rfl, (fun _ h => by cases h), fun hp => absurd (hp s.n) (by simp [ha]), by simp⟩
  | true =>
    obtain ⟨r, s1, h1, h2, h3, h4⟩ := fillRows_ok e 0 l os h [] ⟨s.n + 1, s.live + 1⟩
    refine ⟨r, s1, by simp only [if_true]; exact h1, ?_, ?_, ?_⟩
    · intro j hj; have := h2 j hj; simpa [array] using this
    · intro hp; have := h3 hp; simpa [array] using this
    · rw [h4]
      simp only [J.nodes, nodesL]
      cases r <;> simp <;> omega

theorem allMembers_append (a : List (String × Option J)) (k : String) (o : Option J) :
    allMembers (a ++ [(k, o)]) = (allMembers a).bind (fun ms => o.map (fun j => ms ++ [(k, j)])) := by
  induction a with
  | nil => cases o <;> simp [allMembers]
  | cons x a ih =>
    obtain ⟨k2, o2⟩ := x
    cases o2 with
    | none => simp [allMembers]
    | some j => simp only [List.cons_append, allMembers, ih]; cases allMembers a <;> cases o <;> simp

/-- An object whose last member is an array that's filled once it's in. -/
theorem prints_objArr (e : Env) (l : List (String × B)) (os : List (String × Option J)) (k : String) (fill : Nat → B) (doc : Option J) (h : Members e l os)
    (hf : ∀ held, Fills e held 1 (fill held) doc) : Prints (objArrB l k fill) e (object (os ++ [(k, doc)])) := by
  intro s
  obtain ⟨r, s1, h1, h2, h3, h4⟩ := prints_obj e l os h s
  cases r with
  | none =>
    refine ⟨none, s1, by simp only [objArrB, h1], (fun _ h => by cases h), ?_, h4⟩
    intro hp
    have := h3 hp
    unfold object at this ⊢
    rw [allMembers_append]
    cases hm : allMembers os with
    | none => rfl
    | some ms => rw [hm] at this; cases this
  | some j =>
    have ho := h2 j rfl
    unfold object at ho
    cases hm : allMembers os with
    | none => rw [hm] at ho; cases ho
    | some ms =>
      rw [hm] at ho
      simp only [Option.map_some, Option.some.injEq] at ho
      subst ho
      have hd : object (os ++ [(k, doc)]) = doc.map (fun j => J.obj (ms ++ [(k, j)])) := by
        unfold object
        rw [allMembers_append, hm]
        cases doc <;> rfl
      rw [hd]
      cases ha : e.alloc s1.n with
      | false =>
        refine ⟨none, _, by simp only [objArrB, h1, lastArray, arrayNew, alloc1, ha, Bool.false_eq_true, if_false, drop]; rfl, (fun _ h => by cases h), fun hp => absurd (hp s1.n) (by simp [ha]), ?_⟩
        simp only [] at h4 ⊢
        omega
      | true =>
        cases ha2 : e.alloc (s1.n + 1) with
        | false =>
          refine ⟨none, _, by simp only [objArrB, h1, lastArray, arrayNew, alloc1, ha, ha2, Bool.false_eq_true, if_false, if_true, drop]; rfl, (fun _ h => by cases h), fun hp => absurd (hp (s1.n + 1)) (by simp [ha2]), ?_⟩
          simp only [] at h4 ⊢
          have : (J.arr []).nodes = 1 := by simp [J.nodes, nodesL]
          omega
        | true =>
          obtain ⟨r2, s2, g1, g2, g3, g4⟩ := hf (J.obj ms).nodes ⟨s1.n + 1 + 1, s1.live + 1⟩
          cases r2 with
          | none =>
            refine ⟨none, s2, by simp only [objArrB, h1, lastArray, arrayNew, alloc1, ha, ha2, if_true, g1], (fun _ h => by cases h), ?_, ?_⟩
            · intro hp; rw [← g3 hp]; rfl
            · simp only [] at h4 g4 ⊢
              omega
          | some j2 =>
            have hj := g2 j2 rfl
            subst hj
            refine ⟨some (.obj (ms ++ [(k, j2)])), s2, by simp only [objArrB, h1, lastArray, arrayNew, alloc1, ha, ha2, if_true, g1], fun j' hj' => by rw [← hj']; rfl, fun _ => rfl, ?_⟩
            have hn : (J.obj (ms ++ [(k, j2)])).nodes = (J.obj ms).nodes + j2.nodes := by simp [J.nodes, nodesF_append, nodesF]; omega
            simp only [] at h4 g4 ⊢
            rw [hn]
            omega

end Verif.Print
