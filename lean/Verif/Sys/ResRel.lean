import Verif.Sys.Spec
import Verif.Res.RoaProps
/-
Pointers and values: the resources that the program computes are those of the specification.
-/
namespace Verif.Sys
open Verif.Tree Verif.Res

/-- A pointer stands for these ranges. -/
structure KRel {α} (val : α → Rng) (h : Sets α) (p : Option Nat) (l : List Rng) : Prop where
  valid : ValidP h p
  eq : (curr h p).map val = l
  emp : p = none ↔ l = []

theorem KRel.nums {α} {val : α → Rng} {h : Sets α} {p : Option Nat} {l : List Rng} (k : KRel val h p l) (n : Nat) :
    numsOf val h p n ↔ Covered l n := by
  rw [← k.eq]
  unfold numsOf curr
  cases hd : h.deref p with
  | none => simp [Covered]
  | some m => simp

theorem KRel.mono {α} {val : α → Rng} {h h' : Sets α} {p : Option Nat} {l : List Rng} (k : KRel val h p l) (hp : h <+: h') :
    KRel val h' p l :=
  ⟨k.valid.mono hp, by rw [← k.eq]; unfold curr; rw [deref_prefix hp k.valid], k.emp⟩

theorem KRel.nil {α} (val : α → Rng) (h : Sets α) : KRel val h none [] :=
  ⟨(by intro i hi; cases hi), by simp [curr, Sets.deref], by simp⟩

/-- The issuer's pointer stands for these ranges. -/
def PRel {α} (val : α → Rng) (h : Sets α) (P : Option (Option Nat)) (issuer : Option (List Rng)) : Prop :=
  match P, issuer with
  | none, none => True
  | some p, some l => KRel val h p l
  | _, _ => False

theorem PRel.valid {α} {val : α → Rng} {h : Sets α} {P : Option (Option Nat)} {issuer : Option (List Rng)} (k : PRel val h P issuer) :
    ∀ p, P = some p → ValidP h p := by
  intro p hp
  subst hp
  cases issuer with
  | none => exact k.elim
  | some l => exact KRel.valid k

theorem PRel.permits {α} {val : α → Rng} {h : Sets α} {P : Option (Option Nat)} {issuer : Option (List Rng)} (k : PRel val h P issuer)
    (x : α) : Permits val h P x ↔ Has issuer (val x) := by
  unfold Permits Has
  cases P with
  | none => cases issuer with
    | none => simp
    | some l => exact k.elim
  | some p => cases issuer with
    | none => exact k.elim
    | some l =>
      have k' : KRel val h p l := k
      simp only [Option.some.injEq, forall_eq']
      exact forall_congr' fun n => imp_congr_right fun _ => k'.nums n

theorem PRel.ne {α} {val : α → Rng} {h : Sets α} {P : Option (Option Nat)} {issuer : Option (List Rng)} (k : PRel val h P issuer) :
    P = some none ↔ issuer = some [] := by
  cases P with
  | none => cases issuer with
    | none => simp
    | some l => exact k.elim
  | some p => cases issuer with
    | none => exact k.elim
    | some l =>
      have k' : KRel val h p l := k
      simp only [Option.some.injEq]
      exact k'.emp

theorem Grants.unique {issuer : Option (List Rng)} {policy : Policy} {force : Bool} {a b : List Rng} {s : Says}
    (h1 : Grants issuer policy force a s) (h2 : Grants issuer policy force b s) : a = b := by
  cases s with
  | inherits => have := h1.symm.trans h2; cases this; rfl
  | lists l =>
    obtain ⟨_, _, _, xs, e1, e2, _⟩ := h1
    obtain ⟨_, _, _, ys, e3, e4, _⟩ := h2
    have : xs = ys := by
      have := e1.symm.trans e3
      exact List.map_injective_iff.2 (fun _ _ h => Option.some.inj h) this
    subst this
    rw [e2, e4]

theorem map_some_lift {α β} {decode : β → Option α} {val : α → Rng} {es : List β} {ys : List Rng}
    (h : es.map (fun e => (decode e).map val) = ys.map some) : ∃ xs : List α, es.map decode = xs.map some ∧ ys = xs.map val := by
  induction es generalizing ys with
  | nil => cases ys with
    | nil => exact ⟨[], rfl, rfl⟩
    | cons y ys => simp at h
  | cons e es ih => cases ys with
    | nil => simp at h
    | cons y ys =>
      simp only [List.map_cons, List.cons.injEq, Option.map_eq_some_iff] at h
      obtain ⟨⟨x, h1, h2⟩, h3⟩ := h
      obtain ⟨xs, h4, h5⟩ := ih h3
      exact ⟨x :: xs, by simp [h1, h4], by simp [h2, h5]⟩

theorem keep_map {α} {val : α → Rng} {h : Sets α} {P : Option (Option Nat)} {issuer : Option (List Rng)} (k : PRel val h P issuer)
    (xs : List α) : (keep val h P xs).map val = (open Classical in (xs.map val).filter (fun x => decide (Has issuer x))) := by
  unfold keep
  rw [List.filter_map]
  congr 1
  refine List.filter_congr fun x _ => ?_
  exact decide_eq_decide.2 (k.permits x)

/-- What has to come out for one kind. -/
structure KOut {α} (ok : α → Prop) (val : α → Rng) (h : Sets α) (issuer : Option (List Rng)) (policy : Policy) (force : Bool) (w : Says)
    (x : Sets α × Option Nat × Out) : Prop where
  pre : h <+: x.1
  good : GoodH ok val x.1
  sound : x.2.2 = .ok → ∃ own, Grants issuer policy force own w ∧ KRel val x.1 x.2.1 own
  complete : ∀ own, Grants issuer policy force own w → x.2.2 = .ok

theorem addList_out {α β} {ok : α → Prop} {cmp : α → α → Cmp} {val : α → Rng} (law : CmpLaw ok cmp val)
    {decode : β → Option α} (hdec : ∀ e x, decode e = some x → ok x ∧ (val x).min ≤ (val x).max)
    {h : Sets α} (hg : GoodH ok val h) {P : Option (Option Nat)} {issuer : Option (List Rng)} (k : PRel val h P issuer)
    (policy : Policy) (force : Bool) (es : List β) :
    KOut ok val h issuer policy force (.lists (es.map fun e => (decode e).map val)) (addList cmp decode P policy force es h none) := by
  have hinv : KInv ok val h P h none := ⟨List.prefix_refl _, hg, .inl rfl⟩
  unfold addList
  split
  · rename_i hf
    refine ⟨List.prefix_refl _, hg, by simp, ?_⟩
    rintro own ⟨h1, _⟩
    rw [h1] at hf; cases hf
  · rename_i hf
    have hf : force = false := by simpa using hf
    split
    · rename_i hl
      refine ⟨List.prefix_refl _, hg, by simp, ?_⟩
      rintro own ⟨_, h1, _⟩
      rw [List.length_eq_zero_iff.1 hl] at h1
      exact absurd rfl h1
    · rename_i hl
      have hl' : (es.map fun e => (decode e).map val) ≠ [] := by
        intro h0; rw [List.map_eq_nil_iff] at h0; rw [h0] at hl; exact hl rfl
      by_cases hne : P = some none
      · subst hne
        cases es with
        | nil => simp at hl
        | cons e es =>
          rw [addLoop_err]
          refine ⟨List.prefix_refl _, hg, by simp, ?_⟩
          rintro own ⟨_, _, h1, _⟩
          exact absurd (k.ne.1 rfl) h1
      · obtain ⟨h', own', o, h1, h2, h3, h4, h5, h6⟩ := addLoop_spec law hdec k.valid policy es hinv hne (by simp [curr, Sets.deref])
        rw [h1]
        have hc : curr h (none : Option Nat) = [] := rfl
        rw [hc] at h5 h6
        simp only [List.nil_append] at h5 h6
        refine ⟨h2.pre, h2.good, ?_, ?_⟩
        · intro ho
          have ho : o = .ok := ho
          obtain ⟨xs, e1, e2, e3⟩ := h5.1 ho
          obtain ⟨e4, e5⟩ := h6 ho xs e1
          refine ⟨(keep val h P xs).map val, ⟨hf, hl', fun hi => hne (k.ne.2 hi), xs.map val, ?_, keep_map k xs, ?_, e3⟩, ?_⟩
          · have : (es.map fun e => (decode e).map val) = (es.map decode).map (Option.map val) := by simp
            rw [this, e1]; simp
          · intro hp
            congr 1
            unfold keep
            rw [List.filter_eq_self]
            intro x hx
            simpa using e2 hp x hx
          · refine ⟨h2.valid k.valid, ?_, ?_⟩
            · show (curr h' own').map val = _
              rw [e4]
            · show own' = none ↔ _
              rw [e5, e4, List.map_eq_nil_iff]
        · rintro own ⟨_, _, _, ys, e1, e2, e3, e4⟩
          show o = .ok
          obtain ⟨xs, e5, rfl⟩ := map_some_lift e1
          rw [h5]
          rw [← keep_map k xs] at e2
          subst e2
          refine ⟨xs, e5, ?_, e4⟩
          intro hp x hx
          have e3 := e3 hp
          rw [keep_map k xs, List.filter_eq_self] at e3
          have := e3 (val x) (List.mem_map_of_mem hx)
          rw [k.permits]
          simpa using this

theorem inheritSet_out {α} {ok : α → Prop} {val : α → Rng} {h : Sets α} (hg : GoodH ok val h) {P : Option (Option Nat)}
    {issuer : Option (List Rng)} (k : PRel val h P issuer) (policy : Policy) (force : Bool) :
    KOut ok val h issuer policy force .inherits (inheritSet P h none) := by
  cases P with
  | none => cases issuer with
    | none => exact ⟨List.prefix_refl _, hg, by simp [inheritSet], by intro own h; cases h⟩
    | some l => exact k.elim
  | some p => cases issuer with
    | none => exact k.elim
    | some l =>
      refine ⟨List.prefix_refl _, hg, ?_, ?_⟩
      · intro _
        exact ⟨l, rfl, k⟩
      · intro own _; rfl

/-! ### Certificates -/

structure RRel (h : Heap) (r : Resources) (v : Vals) : Prop where
  k4 : KRel R32.rng h.h4 r.ip4 v.ip4
  k6 : KRel R6.rng h.h6 r.ip6 v.ip6
  ka : KRel R32.rng h.ha r.asn v.asn

/-- More sets. -/
structure Grow (h h' : Heap) : Prop where
  p4 : h.h4 <+: h'.h4
  p6 : h.h6 <+: h'.h6
  pa : h.ha <+: h'.ha

theorem Grow.refl (h : Heap) : Grow h h := ⟨List.prefix_refl _, List.prefix_refl _, List.prefix_refl _⟩
theorem Grow.trans {a b c : Heap} (x : Grow a b) (y : Grow b c) : Grow a c := ⟨x.p4.trans y.p4, x.p6.trans y.p6, x.pa.trans y.pa⟩

theorem RRel.mono {h h' : Heap} {r : Resources} {v : Vals} (k : RRel h r v) (g : Grow h h') : RRel h' r v :=
  ⟨k.k4.mono g.p4, k.k6.mono g.p6, k.ka.mono g.pa⟩

/-- The issuer, if there is one. -/
def IRel (h : Heap) (parent : Option Resources) (issuer : Option Vals) : Prop :=
  match parent, issuer with
  | none, none => True
  | some r, some v => RRel h r v
  | _, _ => False

theorem IRel.proj {h : Heap} {parent : Option Resources} {issuer : Option Vals} (k : IRel h parent issuer) :
    PRel R32.rng h.h4 (parent.map (·.ip4)) (issuer.map (·.ip4)) ∧ PRel R6.rng h.h6 (parent.map (·.ip6)) (issuer.map (·.ip6)) ∧
      PRel R32.rng h.ha (parent.map (·.asn)) (issuer.map (·.asn)) := by
  cases parent <;> cases issuer
  · exact ⟨trivial, trivial, trivial⟩
  · exact k.elim
  · exact k.elim
  · exact ⟨RRel.k4 k, RRel.k6 k, RRel.ka k⟩

theorem IRel.mono {h h' : Heap} {parent : Option Resources} {issuer : Option Vals} (k : IRel h parent issuer) (g : Grow h h') :
    IRel h' parent issuer := by
  cases parent <;> cases issuer
  · trivial
  · exact k.elim
  · exact k.elim
  · exact RRel.mono k g

/-- The certificate that is being read: `f`, its IP extension was seen; `g`, its AS number extension. -/
structure Loop (h0 : Heap) (policy : Policy) (force f g : Bool) (h : Heap) (r : Resources) (v : Vals) : Prop where
  good : GoodHeap h
  grow : Grow h0 h
  rel : RRel h r v
  pol : r.policy = policy
  frc : r.forceInherit = force
  ip : f = false → r.ip4 = none ∧ r.ip6 = none
  as : g = false → r.asn = none

theorem family4 {o : List Byte} (h : getAddrFamily o = .ip4) : o = [0, 1] := by
  unfold getAddrFamily at h
  match o with
  | [] => simp at h
  | [_] => simp at h
  | [a, b] =>
    simp at h
    by_cases ha : a = 0#8
    · by_cases hb : b = 1#8
      · rw [ha, hb]; rfl
      · simp [ha, hb] at h
        split at h <;> cases h
    · simp [ha] at h
  | _ :: _ :: _ :: _ => simp at h

theorem family6 {o : List Byte} (h : getAddrFamily o = .ip6) : o = [0, 2] := by
  unfold getAddrFamily at h
  match o with
  | [] => simp at h
  | [_] => simp at h
  | [a, b] =>
    simp at h
    by_cases ha : a = 0#8
    · by_cases hb : b = 1#8
      · simp [ha, hb] at h
      · by_cases hc : b = 2#8
        · rw [ha, hc]; rfl
        · simp [ha, hb, hc] at h
    · simp [ha] at h
  | _ :: _ :: _ :: _ => simp at h

theorem GrantsIp.congr {issuer : Option Vals} {policy : Policy} {force : Bool} {v v' : Vals} {blocks : List IpBlock}
    (h : GrantsIp issuer policy force v blocks) (e4 : v'.ip4 = v.ip4) (e6 : v'.ip6 = v.ip6) : GrantsIp issuer policy force v' blocks := by
  unfold GrantsIp at *
  rw [e4, e6]
  exact h

theorem GrantsAs.congr {issuer : Option Vals} {policy : Policy} {force allow : Bool} {v v' : Vals} {ids : AsIds}
    (h : GrantsAs issuer policy force allow v ids) (e : v'.asn = v.asn) : GrantsAs issuer policy force allow v' ids := by
  unfold GrantsAs at *
  rw [e]
  exact h

theorem GrantsIp.unique {issuer : Option Vals} {policy : Policy} {force : Bool} {v v' : Vals} {blocks : List IpBlock}
    (h : GrantsIp issuer policy force v blocks) (h' : GrantsIp issuer policy force v' blocks) : v'.ip4 = v.ip4 ∧ v'.ip6 = v.ip6 := by
  rcases h with ⟨c, w, rfl, h1, h2, h3⟩ | ⟨c, w, rfl, h1, h2, h3⟩ | ⟨c, d, w, w', rfl, h1, h2, h3, h4⟩
  · rcases h' with ⟨c', u, e, h1', h2', h3'⟩ | ⟨c', u, e, h1', h2', h3'⟩ | ⟨c', d', u, u', e, h1', h2', h3', h4'⟩
    · cases e
      rw [h1] at h1'; cases h1'
      exact ⟨h2'.unique h2, h3'.trans h3.symm⟩
    · simp at e
    · simp at e
  · rcases h' with ⟨c', u, e, h1', h2', h3'⟩ | ⟨c', u, e, h1', h2', h3'⟩ | ⟨c', d', u, u', e, h1', h2', h3', h4'⟩
    · simp at e
    · cases e
      rw [h1] at h1'; cases h1'
      exact ⟨h3'.trans h3.symm, h2'.unique h2⟩
    · simp at e
  · rcases h' with ⟨c', u, e, h1', h2', h3'⟩ | ⟨c', u, e, h1', h2', h3'⟩ | ⟨c', d', u, u', e, h1', h2', h3', h4'⟩
    · simp at e
    · simp at e
    · cases e
      rw [h1] at h1'; cases h1'
      rw [h2] at h2'; cases h2'
      exact ⟨h3'.unique h3, h4'.unique h4⟩

theorem GrantsAs.unique {issuer : Option Vals} {policy : Policy} {force allow : Bool} {v v' : Vals} {ids : AsIds}
    (h : GrantsAs issuer policy force allow v ids) (h' : GrantsAs issuer policy force allow v' ids) : v'.asn = v.asn := by
  obtain ⟨_, c, w, e1, e2, e3⟩ := h
  obtain ⟨_, c', w', e1', e2', e3'⟩ := h'
  rw [e1] at e1'; cases e1'
  rw [e2] at e2'; cases e2'
  exact e3'.unique e3

/-- One block of IPv4 addresses. -/
theorem addIp4_out {h0 h : Heap} {policy : Policy} {force : Bool} {r : Resources} {v : Vals} {parent : Option Resources}
    {issuer : Option Vals} (hi : IRel h0 parent issuer) (grow : Grow h0 h) (good : GoodHeap h) (rel : RRel h r v) (pol : r.policy = policy)
    (frc : r.forceInherit = force) (h4 : r.ip4 = none) (c : IpChoice) :
    (∀ h1 r1, resourcesAddIp h r parent ⟨[0, 1], c⟩ = (h1, r1, .ok) → ∃ w own, ipMeaning range4 c = some w ∧
      Grants (issuer.map (·.ip4)) policy force own w ∧ GoodHeap h1 ∧ Grow h0 h1 ∧ RRel h1 r1 { v with ip4 := own } ∧ r1.policy = policy ∧
      r1.forceInherit = force ∧ r1.ip6 = r.ip6 ∧ r1.asn = r.asn) ∧
    (∀ w own, ipMeaning range4 c = some w → Grants (issuer.map (·.ip4)) policy force own w →
      (resourcesAddIp h r parent ⟨[0, 1], c⟩).2.2 = .ok) ∧
    GoodHeap (resourcesAddIp h r parent ⟨[0, 1], c⟩).1 ∧ Grow h0 (resourcesAddIp h r parent ⟨[0, 1], c⟩).1 := by
  have hp := (hi.mono grow).proj.1
  unfold resourcesAddIp
  rw [show getAddrFamily [0, 1] = .ip4 from rfl]
  cases c with
  | nothing => exact ⟨(by rintro h1 r1 ⟨⟩), (by rintro w own ⟨⟩), good, grow⟩
  | inherit =>
    have k := inheritSet_out good.g4 hp policy force
    simp only [h4, ipMeaning, Option.some.injEq]
    refine ⟨?_, ?_, ⟨k.good, good.g6, good.ga⟩, grow.trans ⟨k.pre, List.prefix_refl _, List.prefix_refl _⟩⟩
    · intro h1 r1 e
      simp only [Prod.mk.injEq] at e
      obtain ⟨e1, e2, e3⟩ := e
      obtain ⟨own, a, b⟩ := k.sound e3
      subst e1 e2
      exact ⟨.inherits, own, rfl, a, ⟨k.good, good.g6, good.ga⟩, grow.trans ⟨k.pre, List.prefix_refl _, List.prefix_refl _⟩,
        ⟨b, rel.k6, rel.ka⟩, pol, frc, rfl, rfl⟩
    · rintro w own rfl a
      exact k.complete own a
  | aors l =>
    have k := addList_out law32 decode4_good good.g4 hp policy force l
    rw [← pol, ← frc] at k ⊢
    simp only [h4, ipMeaning, Option.some.injEq]
    refine ⟨?_, ?_, ⟨k.good, good.g6, good.ga⟩, grow.trans ⟨k.pre, List.prefix_refl _, List.prefix_refl _⟩⟩
    · intro h1 r1 e
      simp only [Prod.mk.injEq] at e
      obtain ⟨e1, e2, e3⟩ := e
      obtain ⟨own, a, b⟩ := k.sound e3
      subst e1 e2
      exact ⟨_, own, rfl, a, ⟨k.good, good.g6, good.ga⟩, grow.trans ⟨k.pre, List.prefix_refl _, List.prefix_refl _⟩,
        ⟨b, rel.k6, rel.ka⟩, rfl, rfl, rfl, rfl⟩
    · rintro w own rfl a
      exact k.complete own a

/-- One block of IPv6 addresses. -/
theorem addIp6_out {h0 h : Heap} {policy : Policy} {force : Bool} {r : Resources} {v : Vals} {parent : Option Resources}
    {issuer : Option Vals} (hi : IRel h0 parent issuer) (grow : Grow h0 h) (good : GoodHeap h) (rel : RRel h r v) (pol : r.policy = policy)
    (frc : r.forceInherit = force) (h6 : r.ip6 = none) (c : IpChoice) :
    (∀ h1 r1, resourcesAddIp h r parent ⟨[0, 2], c⟩ = (h1, r1, .ok) → ∃ w own, ipMeaning range6 c = some w ∧
      Grants (issuer.map (·.ip6)) policy force own w ∧ GoodHeap h1 ∧ Grow h0 h1 ∧ RRel h1 r1 { v with ip6 := own } ∧ r1.policy = policy ∧
      r1.forceInherit = force ∧ r1.ip4 = r.ip4 ∧ r1.asn = r.asn) ∧
    (∀ w own, ipMeaning range6 c = some w → Grants (issuer.map (·.ip6)) policy force own w →
      (resourcesAddIp h r parent ⟨[0, 2], c⟩).2.2 = .ok) ∧
    GoodHeap (resourcesAddIp h r parent ⟨[0, 2], c⟩).1 ∧ Grow h0 (resourcesAddIp h r parent ⟨[0, 2], c⟩).1 := by
  have hp := (hi.mono grow).proj.2.1
  unfold resourcesAddIp
  rw [show getAddrFamily [0, 2] = .ip6 from rfl]
  cases c with
  | nothing => exact ⟨(by rintro h1 r1 ⟨⟩), (by rintro w own ⟨⟩), good, grow⟩
  | inherit =>
    have k := inheritSet_out good.g6 hp policy force
    simp only [h6, ipMeaning, Option.some.injEq]
    refine ⟨?_, ?_, ⟨good.g4, k.good, good.ga⟩, grow.trans ⟨List.prefix_refl _, k.pre, List.prefix_refl _⟩⟩
    · intro h1 r1 e
      simp only [Prod.mk.injEq] at e
      obtain ⟨e1, e2, e3⟩ := e
      obtain ⟨own, a, b⟩ := k.sound e3
      subst e1 e2
      exact ⟨.inherits, own, rfl, a, ⟨good.g4, k.good, good.ga⟩, grow.trans ⟨List.prefix_refl _, k.pre, List.prefix_refl _⟩,
        ⟨rel.k4, b, rel.ka⟩, pol, frc, rfl, rfl⟩
    · rintro w own rfl a
      exact k.complete own a
  | aors l =>
    have k := addList_out law6 decode6_good good.g6 hp policy force l
    rw [← pol, ← frc] at k ⊢
    simp only [h6, ipMeaning, Option.some.injEq]
    refine ⟨?_, ?_, ⟨good.g4, k.good, good.ga⟩, grow.trans ⟨List.prefix_refl _, k.pre, List.prefix_refl _⟩⟩
    · intro h1 r1 e
      simp only [Prod.mk.injEq] at e
      obtain ⟨e1, e2, e3⟩ := e
      obtain ⟨own, a, b⟩ := k.sound e3
      subst e1 e2
      exact ⟨_, own, rfl, a, ⟨good.g4, k.good, good.ga⟩, grow.trans ⟨List.prefix_refl _, k.pre, List.prefix_refl _⟩,
        ⟨rel.k4, b, rel.ka⟩, rfl, rfl, rfl, rfl⟩
    · rintro w own rfl a
      exact k.complete own a

end Verif.Sys
