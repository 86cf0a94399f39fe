import Verif.Xmem.LemmasUpdate
/-
C204: RRDP updates and memory.
-/
namespace Verif.Xmem
open Verif.Heap

/-- The state after `n` RRDP updates; `docs` are the documents that the servers and the cache have, `orc` is what else happens. -/
def after (lib : Lib) (docs : Docs) (orc : Nat → Nat) (n : Nat) : H := (updates lib docs n (H.init orc)).2

/-- **C204.** Whatever documents servers give, RRDP updates never use or release what isn't allocated, don't follow NULL, and leave
nothing behind — texts, numbers, hashes, contents, files, readers, references — provided the XML library enforces the schema. -/
theorem C204_updates_return_everything {lib : Lib} (hl : Enforces lib) (docs : Docs) (orc : Nat → Nat) (n : Nat) :
    (after lib docs orc n).bad = false ∧ ∀ i, (after lib docs orc n).refs i = 0 := by
  have h := o_updates hl docs n (L := []) (H.init orc) ⟨own_init orc, rfl⟩
  refine ⟨h.1.good, fun i => ?_⟩
  have hb := h.1.bal i
  rw [h.2] at hb
  show (updates lib docs n (H.init orc)).2.refs i = 0
  simpa using hb

/-! ### A library that enforces the schema -/

def elements (p : List Ev) : List Ev := p.filter (·.type = .elem)

/-- src/xml/relax_ng.h:12-230: what elements may follow which. -/
def allowed : List Ev → Bool
  | [] => true
  | r :: es => match r.name with
    | .notification => match es with
      | [] => true
      | s :: ds => s.name = .snapshot && s.hasUri && ds.all fun d => d.name = .delta && d.hasUri
    | .snapshot => !r.hasUri && es.all fun e => e.name = .publish && e.hasUri
    | .delta => !r.hasUri && es.all fun e => (e.name = .publish || e.name = .withdraw) && e.hasUri
    | _ => false

/-- src/xml/relax_ng.h:12-230: which elements have to be there. -/
def complete : List Ev → Bool
  | [] => false
  | r :: es => match r.name with
    | .notification => !es.isEmpty
    | .snapshot => true
    | .delta => !es.isEmpty
    | _ => false

def rfc8182 : Lib where
  valid p := p.all (·.vfits) && allowed (elements p)
  validEnd p := p.all (·.vfits) && allowed (elements p) && complete (elements p)

theorem countP_elements (p : List Ev) (n : Nm) : p.countP (·.starts n) = (elements p).countP (·.name = n) := by
  induction p with
  | nil => rfl
  | cons e p ih =>
    unfold elements at ih ⊢
    by_cases ht : e.type = .elem
    · rw [List.filter_cons_of_pos (by simpa using ht), List.countP_cons, List.countP_cons, ih]
      simp [Ev.starts, ht]
    · rw [List.filter_cons_of_neg (by simpa using ht), List.countP_cons, ih]
      simp [Ev.starts, ht]

theorem countP_of_names {l : List Ev} {n : Nm} (h : ∀ e ∈ l, e.name ≠ n) : l.countP (·.name = n) = 0 := List.countP_eq_zero.2 fun e he => by simpa using h e he

theorem mem_elements {p : List Ev} {e : Ev} (h : e ∈ elements p) : e ∈ p ∧ e.type = .elem := by simpa [elements] using h

theorem allowed_once {l : List Ev} (h : allowed l = true) (n : Nm) (hn : n = .notification ∨ n = .snapshot) : l.countP (·.name = n) ≤ 1 := by
  cases l with
  | nil => simp
  | cons r es =>
    unfold allowed at h
    rw [List.countP_cons]
    cases hr : r.name <;> simp only [hr] at h
    · cases es with
      | nil => simp; split <;> omega
      | cons s ds =>
        simp only [Bool.and_eq_true, decide_eq_true_eq, List.all_eq_true] at h
        have h0 : ds.countP (·.name = n) = 0 := countP_of_names fun e he => by rcases hn with rfl | rfl <;> simp [(h.2 e he).1]
        rw [List.countP_cons, h0]
        rcases hn with rfl | rfl <;> simp [h.1.1]
    · simp only [Bool.and_eq_true, decide_eq_true_eq, List.all_eq_true] at h
      rw [countP_of_names fun e he => by rcases hn with rfl | rfl <;> simp [(h.2 e he).1]]
      split <;> omega
    · simp only [Bool.and_eq_true, Bool.or_eq_true, decide_eq_true_eq, List.all_eq_true] at h
      rw [countP_of_names fun e he => by rcases (h.2 e he).1 with h | h <;> rcases hn with rfl | rfl <;> simp [h]]
      split <;> omega
    all_goals exact absurd h (by simp)

theorem rfc8182_enforces : Enforces rfc8182 where
  notification p h := by
    simp only [rfc8182, Bool.and_eq_true] at h
    rw [countP_elements]
    exact allowed_once h.2 _ (Or.inl rfl)
  snapshot p h := by
    simp only [rfc8182, Bool.and_eq_true] at h
    rw [countP_elements]
    exact allowed_once h.2 _ (Or.inr rfl)
  version p h := by
    simp only [rfc8182, Bool.and_eq_true, List.all_eq_true] at h
    exact h.1
  whole p h := by
    simp only [rfc8182, Bool.and_eq_true, List.all_eq_true] at h
    obtain ⟨⟨-, ha⟩, hc⟩ := h
    have hm : ∀ e ∈ elements p, e ∈ p ∧ e.type = .elem := fun e he => mem_elements he
    generalize elements p = l at ha hc hm
    cases l with
    | nil => simp [complete] at hc
    | cons r es =>
      unfold allowed at ha
      unfold complete at hc
      obtain ⟨h1, h2⟩ := hm r (by simp)
      cases hr : r.name <;> simp only [hr] at ha hc
      · cases es with
        | nil => simp at hc
        | cons s ds =>
          simp only [Bool.and_eq_true, decide_eq_true_eq] at ha
          obtain ⟨h3, h4⟩ := hm s (by simp)
          exact Or.inl ⟨⟨r, h1, by simp [Ev.starts, h2, hr]⟩, ⟨s, h3, by simp [Ev.starts, h4, ha.1.1]⟩⟩
      · simp only [Bool.and_eq_true, Bool.not_eq_true'] at ha
        exact Or.inr ⟨r, h1, Or.inl (by simp [Ev.starts, h2, hr]), ha.1⟩
      · simp only [Bool.and_eq_true, Bool.not_eq_true'] at ha
        exact Or.inr ⟨r, h1, Or.inr (by simp [Ev.starts, h2, hr]), ha.1⟩
      all_goals exact absurd hc (by simp)

/-! ### Documents -/

def node (t : Ty) (n : Nm) (u : Bool) : Ev := ⟨t, n, true, u⟩
def aNotification : List Ev := [node .elem .notification false, node .elem .snapshot true, node .elem .delta true, node .elem .delta true, node .endElem .notification false]
def aSnapshot : List Ev := [node .elem .snapshot false, node .elem .publish true, node .other .other false, node .endElem .publish false, node .endElem .snapshot false]
def aDelta : List Ev := [node .elem .delta false, node .elem .publish true, node .other .other false, node .endElem .publish false, node .elem .withdraw true, node .endElem .withdraw false, node .endElem .delta false]
def someDocs : Docs := fun k => if k = 0 then aNotification else if k = 1 then aDelta else if k = 2 then aSnapshot else []

/-- What happens: `l` has the answers that aren't 0. -/
def answers (l : List (Nat × Nat)) (n : Nat) : Nat := ((l.find? (·.1 = n)).map Prod.snd).getD 0

/-- There's an old notification, the serial is another one, and two deltas are applied; 91 objects are allocated. -/
def deltasRun : List (Nat × Nat) := [(150, 1), (109, 2), (112, 1), (106, 1), (103, 1), (94, 2), (89, 1), (50, 1), (41, 2), (36, 1)]
/-- The session is another one, and the snapshot is used; 66 objects are allocated. -/
def snapshotRun : List (Nat × Nat) := [(108, 2), (105, 1), (103, 1), (94, 2), (89, 1), (50, 1), (41, 2), (36, 1)]

example : Enforces rfc8182 := rfc8182_enforces
example : (rrdpUpdate rfc8182 someDocs (H.init (answers deltasRun))).1 = false ∧ (after rfc8182 someDocs (answers deltasRun) 1).next = 91 := by decide +kernel
example : (rrdpUpdate rfc8182 someDocs (H.init (answers snapshotRun))).1 = false ∧ (after rfc8182 someDocs (answers snapshotRun) 1).next = 66 := by decide +kernel
/-- Half-way, plenty is allocated. -/
example : (parseNotification rfc8182 aNotification (H.init (answers [(45, 2), (35, 1), (40, 2), (49, 1)]))).2.next = 26 := by decide +kernel

/-- It is the schema that makes it so. Without it: a second `snapshot` element, or a second root, leaks what the first one gave; an
enormous version number is printed after it has been released; and a notification without a snapshot makes the validator follow NULL. -/
theorem C204_schema_needed : ∃ lib : Lib,
    (∃ docs orc, (rrdpUpdate lib docs (H.init orc)).1 = false ∧ (after lib docs orc 1).bad = false ∧ ∃ i, (after lib docs orc 1).refs i ≠ 0 ∧ docs 0 = [node .elem .notification false, node .elem .snapshot true, node .elem .snapshot true, node .endElem .notification false]) ∧
    (∃ docs orc, (after lib docs orc 1).bad = true ∧ docs 0 = [⟨.elem, .notification, false, false⟩]) ∧
    (∃ docs orc, (after lib docs orc 1).bad = true ∧ docs 0 = [node .elem .notification false, node .endElem .notification false]) :=
  ⟨⟨fun _ => true, fun _ => true⟩,
    ⟨fun _ => [node .elem .notification false, node .elem .snapshot true, node .elem .snapshot true, node .endElem .notification false], fun _ => 0, by decide +kernel, by decide +kernel, 8, by decide +kernel, rfl⟩,
    ⟨fun _ => [⟨.elem, .notification, false, false⟩], fun _ => 0, by decide +kernel, rfl⟩,
    ⟨fun _ => [node .elem .notification false, node .endElem .notification false], answers [(0, 1)], by decide +kernel, rfl⟩⟩

end Verif.Xmem
