import Verif.Res.ModelRes
import Verif.Res.SetProps
import Verif.Res.AddrProps
import Mathlib.Logic.Basic
import Mathlib.Tactic.SplitIfs
/-
Lemmas about the construction of one kind of resources.
-/
namespace Verif.Res

/-- The numbers of the set behind a pointer. -/
def numsOf {α} (val : α → Rng) (h : Sets α) (p : Option Nat) (n : Nat) : Prop :=
  ∃ l, h.deref p = some l ∧ Covered (l.map val) n

def GoodSet {α} (ok : α → Prop) (val : α → Rng) (l : List α) : Prop := (∀ a ∈ l, ok a) ∧ Canonical (l.map val)

def GoodH {α} (ok : α → Prop) (val : α → Rng) (h : Sets α) : Prop := ∀ l ∈ h, GoodSet ok val l

def ValidP {α} (h : Sets α) (p : Option Nat) : Prop := ∀ i, p = some i → i < h.length

/-- State of one kind of resources of the certificate that is being built; `h0` is the heap at the beginning, `P` the
set of the issuer. -/
structure KInv {α} (ok : α → Prop) (val : α → Rng) (h0 : Sets α) (P : Option (Option Nat)) (h : Sets α)
    (own : Option Nat) : Prop where
  pre : h0 <+: h
  good : GoodH ok val h
  own : own = none ∨ P = some own ∨ ∃ i, own = some i ∧ h0.length ≤ i ∧ i < h.length ∧
    ∀ p, P = some p → ∀ n, numsOf val h own n → numsOf val h0 p n

/-- The set built so far. -/
def curr {α} (h : Sets α) (own : Option Nat) : List α := (h.deref own).getD []

/-- The issuer has all numbers of the element. -/
def Permits {α} (val : α → Rng) (h0 : Sets α) (P : Option (Option Nat)) (x : α) : Prop :=
  ∀ p, P = some p → ∀ n, (val x).Has n → numsOf val h0 p n

theorem deref_prefix {α} {h0 h : Sets α} (hp : h0 <+: h) {p : Option Nat} (hv : ValidP h0 p) :
    h.deref p = h0.deref p := by
  cases p with
  | none => rfl
  | some i =>
    have := hv i rfl
    obtain ⟨t, rfl⟩ := hp
    simp [Sets.deref, List.getElem?_append_left this]

theorem numsOf_prefix {α} {val : α → Rng} {h0 h : Sets α} (hp : h0 <+: h) {p : Option Nat} (hv : ValidP h0 p) (n : Nat) :
    numsOf val h p n ↔ numsOf val h0 p n := by
  unfold numsOf; rw [deref_prefix hp hv]

theorem contains_permits {α} {ok : α → Prop} {cmp : α → α → Cmp} {val : α → Rng} (law : CmpLaw ok cmp val)
    {h0 h : Sets α} (hp : h0 <+: h) (hg : GoodH ok val h) {P : Option (Option Nat)}
    (hv : ∀ p, P = some p → ValidP h0 p) {x : α} (hx : ok x) (hxi : (val x).min ≤ (val x).max) :
    ∃ b, issuerHas cmp h P x = some b ∧
      (b = true ↔ Permits val h0 P x) := by
  cases P with
  | none => exact ⟨true, rfl, by simp [Permits]⟩
  | some p =>
    simp only [Permits, Option.some.injEq, forall_eq']
    have hd := deref_prefix hp (hv p rfl)
    cases hl : h.deref p with
    | none =>
      refine ⟨false, by simp [issuerHas, hl, sarrayContains], ?_⟩
      simp only [Bool.false_eq_true, false_iff, not_forall]
      refine ⟨(val x).min, ⟨Nat.le_refl _, hxi⟩, ?_⟩
      rintro ⟨l, h1, _⟩
      rw [← hd, hl] at h1; cases h1
    | some l =>
      have hm : l ∈ h := by
        cases p with
        | none => cases hl
        | some i => exact List.mem_of_getElem? hl
      obtain ⟨b, h1, h2⟩ := contains_iff law (hg l hm).1 (hg l hm).2 hx hxi
      refine ⟨b, by simpa [issuerHas, hl] using h1, ?_⟩
      rw [h2]
      unfold numsOf
      rw [← hd, hl]
      simp

theorem prefix_set {α} {h0 h : List α} (hp : h0 <+: h) {i : Nat} (hi : h0.length ≤ i) (x : α) : h0 <+: h.set i x := by
  obtain ⟨t, rfl⟩ := hp
  rw [List.set_append_right _ _ hi]
  exact List.prefix_append _ _

theorem goodH_set {α} {ok : α → Prop} {val : α → Rng} {h : Sets α} (hg : GoodH ok val h) (i : Nat) {l : List α}
    (hl : GoodSet ok val l) : GoodH ok val (h.set i l) := by
  intro m hm
  rcases List.mem_or_eq_of_mem_set hm with hm | rfl
  · exact hg m hm
  · exact hl

theorem covered_append {l m : List Rng} {n : Nat} : Covered (l ++ m) n ↔ Covered l n ∨ Covered m n := by
  simp only [Covered, List.mem_append]
  constructor
  · rintro ⟨r, h | h, h2⟩
    · exact .inl ⟨r, h, h2⟩
    · exact .inr ⟨r, h, h2⟩
  · rintro (⟨r, h, h2⟩ | ⟨r, h, h2⟩)
    · exact ⟨r, .inl h, h2⟩
    · exact ⟨r, .inr h, h2⟩

open Classical in
/-- What remains of an element. -/
noncomputable def keep {α} (val : α → Rng) (h0 : Sets α) (P : Option (Option Nat)) (xs : List α) : List α :=
  xs.filter (fun x => decide (Permits val h0 P x))

theorem addElem_spec {α} {ok : α → Prop} {cmp : α → α → Cmp} {val : α → Rng} (law : CmpLaw ok cmp val)
    {h0 h : Sets α} {P : Option (Option Nat)} {own : Option Nat} (hinv : KInv ok val h0 P h own)
    (hv : ∀ p, P = some p → ValidP h0 p) (policy : Policy) {dec : Option α}
    (hdec : ∀ x, dec = some x → ok x ∧ (val x).min ≤ (val x).max) (hne : P ≠ some own)
    (hemp : own = none ↔ curr h own = []) :
    KInv ok val h0 P (addElem cmp h own P policy dec).1 (addElem cmp h own P policy dec).2.1 ∧
    (addElem cmp h own P policy dec).2.2 ≠ .crit ∧ P ≠ some (addElem cmp h own P policy dec).2.1 ∧
    ((addElem cmp h own P policy dec).2.2 = .ok ↔ ∃ x, dec = some x ∧ (policy = .rfc6484 → Permits val h0 P x) ∧
      Canonical ((curr h own ++ keep val h0 P [x]).map val)) ∧
    ((addElem cmp h own P policy dec).2.2 = .ok → ∀ x, dec = some x →
      (curr (addElem cmp h own P policy dec).1 (addElem cmp h own P policy dec).2.1 =
        curr h own ++ keep val h0 P [x]) ∧
      ((addElem cmp h own P policy dec).2.1 = none ↔
        curr (addElem cmp h own P policy dec).1 (addElem cmp h own P policy dec).2.1 = [])) := by
  unfold addElem
  rw [if_neg hne]
  cases dec with
  | none => simp [hinv, hne]
  | some x =>
    obtain ⟨hx, hxi⟩ := hdec x rfl
    obtain ⟨b, hb, hbp⟩ := contains_permits law hinv.pre hinv.good hv hx hxi
    simp only [hb]
    have hcurr : GoodSet ok val (curr h own) := by
      unfold curr
      cases hl : h.deref own with
      | none => exact ⟨by simp, trivial⟩
      | some l =>
        refine hinv.good l ?_
        cases own with
        | none => cases hl
        | some i => exact List.mem_of_getElem? hl
    cases b with
    | false =>
      have hnp : ¬ Permits val h0 P x := by rw [← hbp]; simp
      have hk : keep val h0 P [x] = [] := by simp [keep, hnp]
      cases policy with
      | rfc6484 => simp [hinv, hne, hnp]
      | rfc8360 => simp [hinv, hne, hk, hcurr.2, hemp]
    | true =>
      have hp : Permits val h0 P x := hbp.1 rfl
      have hk : keep val h0 P [x] = [x] := by simp [keep, hp]
      simp only [hk]
      have hadd := sarrayAdd_iff law hcurr.1 hcurr.2 hx hxi
      have hnums : ∀ p, P = some p → ∀ n, numsOf val h own n → numsOf val h0 p n := by
        rcases hinv.own with rfl | h1 | ⟨i, rfl, h1, h2, h3⟩
        · rintro p _ n ⟨l, h1, _⟩; cases h1
        · exact absurd h1 hne
        · exact h3
      have hnums' : ∀ p, P = some p → ∀ n, Covered ((curr h own).map val) n → numsOf val h0 p n := by
        intro p hp n hn
        refine hnums p hp n ?_
        unfold curr at hn
        cases hl : h.deref own with
        | none => rw [hl] at hn; obtain ⟨_, h, _⟩ := hn; simp at h
        | some l => rw [hl] at hn; exact ⟨l, hl, hn⟩
      have hnew : ∀ p, P = some p → ∀ n, Covered ((curr h own ++ [x]).map val) n → numsOf val h0 p n := by
        intro p hpp n hn
        rw [List.map_append, covered_append] at hn
        rcases hn with hn | ⟨r, hr, hn⟩
        · exact hnums' p hpp n hn
        · simp only [List.map_cons, List.map_nil, List.mem_singleton] at hr
          subst hr; exact hp p hpp n hn
      have hgnew : Canonical ((curr h own ++ [x]).map val) → GoodSet ok val (curr h own ++ [x]) := by
        intro hc
        refine ⟨?_, hc⟩
        intro a ha
        rcases List.mem_append.1 ha with ha | ha
        · exact hcurr.1 a ha
        · rw [List.mem_singleton.1 ha]; exact hx
      have hfreshP : ∀ i, h0.length ≤ i → P ≠ some (some i) := by
        intro i hi hP
        have := hv _ hP i rfl
        omega
      rcases hinv.own with rfl | h1 | ⟨i, rfl, hi1, hi2, hi3⟩
      · -- new set
        simp only [curr, Sets.deref, Option.getD_none, List.nil_append] at hadd hnew hgnew ⊢
        have hc : Canonical ([x].map val) := hxi
        have hs : sarrayAdd cmp [] x = some [x] := (hadd _).2 ⟨rfl, hc⟩
        have hl : h0.length ≤ h.length := hinv.pre.length_le
        simp only [List.getElem?_concat_length, hs]
        have e : (h ++ [[]]).set h.length [x] = h ++ [[x]] := by simp
        rw [e]
        refine ⟨⟨hinv.pre.trans (List.prefix_append _ _), ?_, ?_⟩, by simp, hfreshP _ hl, ?_, ?_⟩
        · intro l hm
          rcases List.mem_append.1 hm with hm | hm
          · exact hinv.good l hm
          · rw [List.mem_singleton.1 hm]; exact hgnew hc
        · right; right
          refine ⟨h.length, rfl, hl, by simp, ?_⟩
          rintro p hpp n ⟨l, h1, h2⟩
          simp only [Sets.deref, List.getElem?_concat_length, Option.some.injEq] at h1
          subst h1; exact hnew p hpp n h2
        · simp only [true_iff]
          exact ⟨x, rfl, fun _ => hp, by rw [hk]; exact hc⟩
        · rintro _ y hy
          cases hy
          simp [hk]
      · exact absurd h1 hne
      · have hget : h[i]? = some (curr h (some i)) := by
          simp [curr, Sets.deref, List.getElem?_eq_getElem hi2]
        simp only [hget]
        cases hs : sarrayAdd cmp (curr h (some i)) x with
        | none =>
          have hnc : ¬ Canonical ((curr h (some i) ++ [x]).map val) := by
            intro hc
            have := (hadd _).2 ⟨rfl, hc⟩
            rw [hs] at this; cases this
          refine ⟨hinv, by simp, hne, ?_, by simp⟩
          simp only [reduceCtorEq, false_iff]
          rintro ⟨y, hy, _, hc⟩
          cases hy
          rw [hk] at hc
          exact hnc hc
        | some l' =>
          obtain ⟨rfl, hc⟩ := (hadd l').1 hs
          have hget' : (h.set i (curr h (some i) ++ [x]))[i]? = some (curr h (some i) ++ [x]) := by
            simp [hi2]
          refine ⟨⟨prefix_set hinv.pre hi1 _, goodH_set hinv.good i (hgnew hc), ?_⟩, by simp, hfreshP i hi1, ?_, ?_⟩
          · right; right
            refine ⟨i, rfl, hi1, by simpa using hi2, ?_⟩
            rintro p hpp n ⟨l, h1, h2⟩
            simp only [Sets.deref, hget', Option.some.injEq] at h1
            subst h1; exact hnew p hpp n h2
          · simp only [true_iff]
            exact ⟨x, rfl, fun _ => hp, by rw [hk]; exact hc⟩
          · rintro _ y hy
            cases hy
            have : curr (h.set i (curr h (some i) ++ [x])) (some i) = curr h (some i) ++ [x] := by
              show (Sets.deref (h.set i (curr h (some i) ++ [x])) (some i)).getD [] = _
              simp [Sets.deref, hi2]
            simp [hk, this]

theorem canonical_prefix {l m : List Rng} (h : Canonical (l ++ m)) : Canonical l := by
  induction l with
  | nil => trivial
  | cons a p ihp =>
    cases p with
    | nil => exact h.head
    | cons b p => exact ⟨h.1, h.2.1, ihp h.2.2⟩

theorem addElem_err {α} (cmp : α → α → Cmp) (h : Sets α) (own : Option Nat) (policy : Policy) (dec : Option α) :
    addElem cmp h own (some own) policy dec = (h, own, .err) := by
  unfold addElem; rw [if_pos rfl]

theorem addLoop_spec {α β} {ok : α → Prop} {cmp : α → α → Cmp} {val : α → Rng} (law : CmpLaw ok cmp val)
    {decode : β → Option α} (hdec : ∀ e x, decode e = some x → ok x ∧ (val x).min ≤ (val x).max)
    {h0 : Sets α} {P : Option (Option Nat)} (hv : ∀ p, P = some p → ValidP h0 p) (policy : Policy) (es : List β)
    {h : Sets α} {own : Option Nat} (hinv : KInv ok val h0 P h own) (hne : P ≠ some own)
    (hemp : own = none ↔ curr h own = []) :
    ∃ h' own' o, addLoop cmp decode P policy es h own = (h', own', o) ∧ KInv ok val h0 P h' own' ∧ o ≠ .crit ∧
      P ≠ some own' ∧
      (o = .ok ↔ ∃ xs, es.map decode = xs.map some ∧ (policy = .rfc6484 → ∀ x ∈ xs, Permits val h0 P x) ∧
        Canonical ((curr h own ++ keep val h0 P xs).map val)) ∧
      (o = .ok → ∀ xs, es.map decode = xs.map some →
        curr h' own' = curr h own ++ keep val h0 P xs ∧ (own' = none ↔ curr h' own' = [])) := by
  induction es generalizing h own with
  | nil =>
    refine ⟨h, own, .ok, rfl, hinv, by simp, hne, ?_, ?_⟩
    · simp only [true_iff]
      refine ⟨[], rfl, by simp, ?_⟩
      simp only [keep, List.filter_nil, List.append_nil]
      unfold curr
      cases hl : h.deref own with
      | none => trivial
      | some l =>
        refine (hinv.good l ?_).2
        cases own with
        | none => cases hl
        | some i => exact List.mem_of_getElem? hl
    · intro _ xs hxs
      cases xs with
      | nil => simp [keep, hemp]
      | cons y ys => simp at hxs
  | cons e es ih =>
    obtain ⟨k1, k2, k3, k4, k5⟩ := addElem_spec law hinv hv policy (dec := decode e) (hdec e) hne hemp
    unfold addLoop
    generalize hr : addElem cmp h own P policy (decode e) = r at k1 k2 k3 k4 k5 ⊢
    obtain ⟨h1, own1, o1⟩ := r
    simp only at k1 k2 k3 k4 k5 ⊢
    have keep_cons : ∀ x xs, keep val h0 P (x :: xs) = keep val h0 P [x] ++ keep val h0 P xs := by
      intro x xs
      have : x :: xs = [x] ++ xs := rfl
      unfold keep
      rw [this, List.filter_append]
    cases o1 with
    | crit => exact absurd rfl k2
    | err =>
      refine ⟨h1, own1, .err, rfl, k1, by simp, k3, ?_, by simp⟩
      simp only [reduceCtorEq, false_iff]
      rintro ⟨xs, hxs, hpol, hc⟩
      cases xs with
      | nil => simp at hxs
      | cons x xs =>
        simp only [List.map_cons, List.cons.injEq] at hxs
        refine absurd (k4.2 ⟨x, hxs.1, fun hp => hpol hp x List.mem_cons_self, ?_⟩) (by simp)
        rw [keep_cons, ← List.append_assoc, List.map_append] at hc
        exact canonical_prefix hc
    | ok =>
      obtain ⟨x, hx, hpx, hcx⟩ := k4.1 rfl
      obtain ⟨e1, e2⟩ := k5 rfl x hx
      obtain ⟨h', own', o, a1, a2, a3, a4, a5, a6⟩ := ih k1 k3 e2
      refine ⟨h', own', o, a1, a2, a3, a4, ?_, ?_⟩
      · rw [a5, e1]
        constructor
        · rintro ⟨xs, b1, b2, b3⟩
          refine ⟨x :: xs, by simp [hx, b1], ?_, ?_⟩
          · intro hp y hy
            rcases List.mem_cons.1 hy with rfl | hy
            · exact hpx hp
            · exact b2 hp y hy
          · rw [keep_cons, ← List.append_assoc]; exact b3
        · rintro ⟨xs, b1, b2, b3⟩
          cases xs with
          | nil => simp at b1
          | cons y ys =>
            simp only [List.map_cons, List.cons.injEq] at b1
            rw [hx] at b1
            obtain ⟨b0, b1⟩ := b1
            cases b0
            refine ⟨ys, b1, fun hp z hz => b2 hp z (List.mem_cons_of_mem _ hz), ?_⟩
            rw [List.append_assoc, ← keep_cons]; exact b3
      · intro ho xs hxs
        cases xs with
        | nil => simp at hxs
        | cons y ys =>
          simp only [List.map_cons, List.cons.injEq] at hxs
          rw [hx] at hxs
          obtain ⟨b0, b1⟩ := hxs
          cases b0
          obtain ⟨c1, c2⟩ := a6 ho ys b1
          rw [keep_cons, ← List.append_assoc, ← e1]
          exact ⟨c1, c2⟩

/-- An element of a list that cannot succeed because the certificate uses the very set of its issuer. -/
theorem addLoop_err {α β} (cmp : α → α → Cmp) (decode : β → Option α) (policy : Policy) (e : β) (es : List β)
    (h : Sets α) (own : Option Nat) : addLoop cmp decode (some own) policy (e :: es) h own = (h, own, .err) := by
  simp only [addLoop, addElem_err]

/-! ### Decoded elements -/

theorem decode4_good (e : AddrOrRange) (x : R32) (h : decode4 e = some x) : True ∧ x.rng.min ≤ x.rng.max := by
  refine ⟨trivial, ?_⟩
  cases e with
  | nothing => cases h
  | range a b => exact ((C22_range4 a b x.min x.max).1 h).2.2.1
  | pfx s =>
    simp only [decode4, Option.map_eq_some_iff] at h
    obtain ⟨p, hp, rfl⟩ := h
    obtain ⟨h1, h2⟩ := prefix4_canonical hp
    simp only [R32.rng, pton4, prefix4_max h1 h2]
    omega

theorem decode6_good (e : AddrOrRange) (x : R6) (h : decode6 e = some x) : x.WF ∧ x.rng.min ≤ x.rng.max := by
  cases e with
  | nothing => cases h
  | range a b =>
    obtain ⟨h1, h2, _, _, h3, _⟩ := (C22_range6 a b x.min x.max).1 h
    exact ⟨⟨h1, h2⟩, h3⟩
  | pfx s =>
    simp only [decode6, Option.map_eq_some_iff] at h
    obtain ⟨p, hp, rfl⟩ := h
    obtain ⟨h0, h1, h2⟩ := prefix6_canonical hp
    refine ⟨⟨h0, ?_⟩, ?_⟩
    · simp only [ptor6, ipv6SuffixMask]
      split_ifs <;> simp [setQuadrant, orQuadrant, quadrantEdit, h0]
    · simp only [R6.rng, ptor6, prefix6_max h0 h1 h2]
      omega

theorem decodeAs_good (e : AsIdOrRange) (x : R32) (h : decodeAs e = some x) : True ∧ x.rng.min ≤ x.rng.max := by
  refine ⟨trivial, ?_⟩
  cases e with
  | nothing => cases h
  | id b =>
    simp only [decodeAs, Option.map_eq_some_iff] at h
    obtain ⟨p, hp, rfl⟩ := h
    exact Nat.le_refl _
  | range a b =>
    simp only [decodeAs] at h
    split at h
    · cases h
    · split at h
      · cases h
      · split at h
        · cases h
        · cases h
          rename_i hle
          simpa [R32.rng, BitVec.lt_def] using hle

end Verif.Res
