import Verif.Uri.PathLemmas
import Verif.Uri.SpecUri
/-
C38: the path builder works like a list of components.
-/
namespace Verif.Uri
open Verif.Res (Byte)

/-! ### Specification -/

/-- A path component: not empty, without slashes. -/
def IsSeg (c : List Byte) : Prop := c ≠ [] ∧ slash ∉ c

/-- What one does with a path builder. -/
inductive Op where
  | append (c : List Byte)
  | pop

/-- The same on a list of components; popping too much is `none`. -/
def specRun : List Op → List (List Byte) → Option (List (List Byte))
  | [], cs => some cs
  | .append c :: ops, cs => specRun ops (cs ++ [c])
  | .pop :: ops, cs => if cs = [] then none else specRun ops cs.dropLast

/-- Components joined by slashes. -/
def joined : List (List Byte) → List Byte
  | [] => []
  | c :: cs => pathOf c cs

/-! ### Proof -/

/-- The program: the operations, one after the other, up to the first error. -/
def runOps : List Op → PB → R PB
  | [], pb => .ok pb
  | .append c :: ops, pb => do runOps ops (← pbAppend pb (some c))
  | .pop :: ops, pb => do runOps ops (← pbPop pb false)

theorem pathOf_snoc (b : List Byte) (cs : List (List Byte)) (c : List Byte) :
    pathOf b (cs ++ [c]) = pathOf b cs ++ [slash] ++ c := by simp [pathOf]

theorem pbAppend_seg {pb : PB} (h : pb.Inv) {c : List Byte} (hc : c ≠ []) :
    if maxCapacity < pb.len + (if pb.len = 0 then c.length else c.length + 1) + 1 then pbAppend pb (some c) = .err .nospc
    else ∃ pb', pbAppend pb (some c) = .ok pb' ∧ pb'.Inv ∧
      pb'.str = pb.str ++ (if pb.len = 0 then [] else [slash]) ++ c := by
  have := pbAppendn_spec h (src := c ++ [0]) (n := c.length) (by simpa using hc) (by simp)
  simpa [pbAppend] using this

open Classical in
/-- **C38.** On top of any non-empty path, any sequence of appends and pops (with no more pops than appends at any time)
ends with the path of the components that are left, written inside the buffer; the only exception is the error for paths
that do not fit in 4096 characters, which happens exactly when the path is too long at some moment. -/
theorem C38_compose (base : List Byte) (hb : base ≠ []) :
    ∀ (ops : List Op) (_ : ∀ c, Op.append c ∈ ops → IsSeg c) (pb : PB) (_ : pb.Inv) (cs cs' : List (List Byte))
      (_ : ∀ c ∈ cs, IsSeg c) (_ : pb.str = pathOf base cs) (_ : specRun ops cs = some cs'),
      if ∀ p q ds, ops = p ++ q → specRun p cs = some ds → (pathOf base ds).length < maxCapacity then
        ∃ pb', runOps ops pb = .ok pb' ∧ pb'.Inv ∧ pb'.str = pathOf base cs'
      else runOps ops pb = .err .nospc := by
  intro ops
  induction ops with
  | nil =>
    intro _ pb hi cs cs' _ hs hr
    simp only [specRun, Option.some.injEq] at hr
    subst hr
    rw [if_pos]
    · exact ⟨pb, rfl, hi, hs⟩
    · intro p q ds h1 h2
      obtain ⟨rfl, rfl⟩ := List.append_eq_nil_iff.1 h1.symm
      simp only [specRun, Option.some.injEq] at h2
      subst h2
      rw [← hs, str_length hi]
      exact lt_of_lt_of_le hi.fits hi.cap.2
  | cons op ops ih =>
    intro hops pb hi cs cs' hcs hs hr
    have hlen : pb.len = (pathOf base cs).length := by rw [← str_length hi, hs]
    have hpos : pb.len ≠ 0 := by
      rw [hlen]; simp [pathOf, hb]
    have hfit : (pathOf base cs).length < maxCapacity := by rw [← hlen]; exact lt_of_lt_of_le hi.fits hi.cap.2
    have hcond : ∀ ds0 : List (List Byte), specRun [op] cs = some ds0 →
        ((∀ p q ds, op :: ops = p ++ q → specRun p cs = some ds → (pathOf base ds).length < maxCapacity) ↔
         (∀ p q ds, ops = p ++ q → specRun p ds0 = some ds → (pathOf base ds).length < maxCapacity)) := by
      intro ds0 h0
      have step : ∀ p, specRun (op :: p) cs = specRun p ds0 := by
        intro p
        cases op with
        | append c => simp only [specRun, Option.some.injEq] at h0 ⊢; rw [h0]
        | pop =>
          simp only [specRun] at h0 ⊢
          by_cases he : cs = []
          · simp [he] at h0
          · simp only [he, if_false, Option.some.injEq] at h0 ⊢; rw [h0]
      constructor
      · intro h p q ds h1 h2
        exact h (op :: p) q ds (by rw [h1]; rfl) (by rw [step]; exact h2)
      · intro h p q ds h1 h2
        cases p with
        | nil =>
          simp only [specRun, Option.some.injEq] at h2
          rw [← h2]; exact hfit
        | cons o p =>
          simp only [List.cons_append, List.cons.injEq] at h1
          obtain ⟨rfl, h1⟩ := h1
          exact h p q ds h1 (by rw [← step]; exact h2)
    cases op with
    | append c =>
      have hc := hops c (by simp)
      simp only [specRun] at hr
      have ha := pbAppend_seg hi hc.1
      rw [if_neg hpos, if_neg hpos] at ha
      have hl2 : (pathOf base (cs ++ [c])).length = pb.len + (c.length + 1) := by
        rw [pathOf_snoc, hlen]; simp only [List.length_append, List.length_cons, List.length_nil]; omega
      have hrw := hcond (cs ++ [c]) (by simp [specRun])
      by_cases hm : maxCapacity < pb.len + (c.length + 1) + 1
      · rw [if_pos hm] at ha
        rw [if_neg]
        · simp only [runOps, ha, err_bind]
        · rw [hrw]
          intro h
          have := h [] ops (cs ++ [c]) rfl rfl
          omega
      · rw [if_neg hm] at ha
        obtain ⟨pb', e, hi', hs'⟩ := ha
        have := ih (fun c hc => hops c (by simp [hc])) pb' hi' (cs ++ [c]) cs'
          (by intro d hd; rcases List.mem_append.1 hd with h | h
              · exact hcs d h
              · simp only [List.mem_singleton] at h; subst h; exact hc)
          (by rw [hs', pathOf_snoc, hs]) hr
        simp only [runOps, e, ok_bind]
        simpa only [hrw] using this
    | pop =>
      simp only [specRun] at hr
      by_cases he : cs = []
      · simp [he] at hr
      · simp only [he, if_false] at hr
        obtain ⟨ds, c, rfl⟩ : ∃ ds c, cs = ds ++ [c] := ⟨cs.dropLast, cs.getLast he, (List.dropLast_concat_getLast he).symm⟩
        rw [List.dropLast_concat] at hr
        obtain ⟨pb', e, hi', hs'⟩ := pbPop_spec hi (s := pathOf base ds) (c := c) (by simp [pathOf, hb])
          (hcs c (by simp)).2 (by rw [hs, pathOf_snoc]) false
        have := ih (fun c hc => hops c (by simp [hc])) pb' hi' ds cs' (fun d hd => hcs d (by simp [hd])) hs' hr
        have hrw := hcond ds (by simp [specRun])
        simp only [runOps, e, ok_bind]
        simpa only [hrw] using this

/-- Appending a component and popping it gives the path one had. -/
theorem C38_append_pop (base c : List Byte) (hb : base ≠ []) (hc : IsSeg c) (pb pb' : PB) (hi : pb.Inv)
    (hs : pb.str = base) (h : pbAppend pb (some c) = .ok pb') : ∃ pb'', pbPop pb' false = .ok pb'' ∧ pb''.str = pb.str := by
  have := pbAppend_seg hi hc.1
  have hpos : pb.len ≠ 0 := by rw [← str_length hi, hs]; simpa using hb
  rw [if_neg hpos, if_neg hpos] at this
  split at this
  · rw [this] at h; cases h
  · obtain ⟨p, e, hi', hs'⟩ := this
    rw [e] at h
    cases h
    obtain ⟨p2, e2, -, hs2⟩ := pbPop_spec hi' (s := base) hb hc.2 (by rw [hs', hs]) false
    exact ⟨p2, e2, by rw [hs2, hs]⟩

theorem findSlash_none {mem : List Byte} : ∀ {i}, i < mem.length → (∀ k, 1 ≤ k → k ≤ i → mem[k]? ≠ some slash) →
    findSlash mem i = .ok none := by
  intro i
  induction i with
  | zero => intro _ _; rfl
  | succ i ih =>
    intro h1 h2
    unfold findSlash
    rw [List.getElem?_eq_getElem h1]
    have := h2 (i + 1) (by omega) le_rfl
    rw [List.getElem?_eq_getElem h1] at this
    simp only
    rw [if_neg (by simpa using this)]
    exact ih (by omega) (fun k hk hk2 => h2 k hk (by omega))

/-- **C38, from the empty path.** The first component is not preceded by a slash; popping the only component gives the
empty path; popping the empty path is an error, not a crash. -/
theorem C38_empty (c : List Byte) (hc : IsSeg c) (hl : c.length < maxCapacity) :
    (∃ pb, pbAppend pbInit (some c) = .ok pb ∧ pb.Inv ∧ pb.str = c ∧
      ∃ pb', pbPop pb false = .ok pb' ∧ pb'.Inv ∧ pb'.str = []) ∧
    pbPop pbInit false = .err .inval := by
  refine ⟨?_, rfl⟩
  have := pbAppend_seg pbInit_inv hc.1
  rw [if_neg (by simp only [pbInit, if_true]; omega)] at this
  obtain ⟨pb, e, hi, hs⟩ := this
  have hs : pb.str = c := by rw [hs]; simp [PB.str, pbInit]
  refine ⟨pb, e, hi, hs, ?_⟩
  have hlen : pb.len = c.length := by rw [← str_length hi, hs]
  have hget : ∀ k, k < pb.len → pb.mem[k]? = c[k]? := by
    intro k hk
    rw [← hs, PB.str, List.getElem?_take, if_pos hk]
  have hpos : 0 < c.length := List.length_pos_iff.2 hc.1
  have h0 : pb.mem[0]? = some c[0] := by rw [hget 0 (by omega), List.getElem?_eq_getElem hpos]
  have hne : c[0] ≠ slash := fun he => hc.2 (he ▸ List.getElem_mem hpos)
  unfold pbPop
  rw [if_neg]
  · rw [findSlash_none (by have := hi.fits; omega)]
    · simp only [ok_bind, h0]
      rw [if_neg hne]
      have e : memSet pb.mem 0 0 = .ok (pb.mem.set 0 0) := by unfold memSet; rw [if_pos (by have := hi.fits; omega)]
      rw [e, ok_bind]
      refine ⟨_, rfl, ⟨?_, ?_, ?_, ?_⟩, by simp [PB.str]⟩
      · simp only [List.length_set]; have := hi.fits; omega
      · simp only; rw [List.getElem?_set_self (by have := hi.fits; omega)]
      · simp only [List.length_set]; exact hi.cap
      · simp only [List.length_set]; exact hi.pow
    · intro k hk1 hk2 he
      rw [hget k (by omega)] at he
      exact hc.2 (List.mem_of_getElem? he)
  · rintro (h | ⟨-, h⟩)
    · omega
    · rw [h0] at h
      simp only [Option.some.injEq] at h
      exact hne h

/-- What is in the builder. -/
def R.strLen (r : R PB) : Option (List Byte × Nat) :=
  match r with
  | .ok pb => some (pb.str, pb.mem.length)
  | _ => none

/-- a/b/../cc -/
example : R.strLen (do runOps [.append [0x62], .pop, .append [0x63, 0x63]] (← pbAppend pbInit (some [0x61]))) =
    some ([0x61, 0x2F, 0x63, 0x63], 128) := by decide +kernel
/-- The buffer grows when a path does not fit: 100 + 1 + 100 characters. -/
example : R.strLen (do runOps [.append (List.replicate 100 0x62)] (← pbAppend pbInit (some (List.replicate 100 0x61)))) =
    some (List.replicate 100 0x61 ++ [0x2F] ++ List.replicate 100 0x62, 256) := by decide +kernel
example : IsSeg [0x61] := ⟨by decide, by decide⟩

end Verif.Uri
