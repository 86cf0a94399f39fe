import Verif.Res.ResLemmas2
/-
C25: certificates never gain resources. C69: certificate contents do not abort the validator. C70: objects that have to
inherit their resources only inherit.
-/
namespace Verif.Res

/-! ### Specification -/

/-- The AS numbers of a certificate. -/
def Heap.asns (h : Heap) (r : Resources) (n : Nat) : Prop := ∃ l, h.ha.deref r.asn = some l ∧ Covered (l.map R32.rng) n
/-- The IPv4 addresses of a certificate. -/
def Heap.ip4s (h : Heap) (r : Resources) (n : Nat) : Prop := ∃ l, h.h4.deref r.ip4 = some l ∧ Covered (l.map R32.rng) n
/-- The IPv6 addresses of a certificate. -/
def Heap.ip6s (h : Heap) (r : Resources) (n : Nat) : Prop := ∃ l, h.h6.deref r.ip6 = some l ∧ Covered (l.map R6.rng) n

/-- All resources of the first certificate are resources of the second. -/
def Within (h : Heap) (r s : Resources) : Prop :=
  (∀ n, h.asns r n → h.asns s n) ∧ (∀ n, h.ip4s r n → h.ip4s s n) ∧ (∀ n, h.ip6s r n → h.ip6s s n)

/-- The certificate has the same resources before and after. -/
def SameRes (h h' : Heap) (r : Resources) : Prop :=
  (∀ n, h.asns r n ↔ h'.asns r n) ∧ (∀ n, h.ip4s r n ↔ h'.ip4s r n) ∧ (∀ n, h.ip6s r n ↔ h'.ip6s r n)

/-- The state of a validation: the sets in memory, and the resources of the stack of certificates from the one whose
publication point is being read (head) to the trust anchor (last). -/
abbrev VState := Heap × List Resources

/-- What can happen to it: the certificate at the top signs a certificate of any content, whose resources are accepted
(it is pushed) or not (src/cert_stack.c:287-327 `x509stack_push`); the resources of the end entity certificate of a
signed object are read (any content, any result; src/object/certificate.c:1225-1246 `certificate_get_resources`); the
top is removed. -/
inductive VStep : VState → VState → Prop
  | push {h h' st policy exts type r} : initResources h st.head? policy exts type = (h', r, .ok) →
      VStep (h, st) (h', r :: st)
  | reject {h h' st policy exts type r} : initResources h st.head? policy exts type = (h', r, .err) →
      VStep (h, st) (h', st)
  | endEntity {h h' top st policy force exts type r o} :
      certificateGetResources h (Resources.create policy force) (some top) exts type = (h', r, o) →
      VStep (h, top :: st) (h', top :: st)
  | pop {h top st} : VStep (h, top :: st) (h, st)

/-- States a validation can reach. -/
inductive VReach : VState → Prop
  | init : VReach (⟨[], [], []⟩, [])
  | step {s t} : VReach s → VStep s t → VReach t

/-! ### Proofs -/

theorem Within.refl (h : Heap) (r : Resources) : Within h r r := ⟨fun _ h => h, fun _ h => h, fun _ h => h⟩

theorem Within.trans {h : Heap} {r s t : Resources} (a : Within h r s) (b : Within h s t) : Within h r t :=
  ⟨fun n hn => b.1 n (a.1 n hn), fun n hn => b.2.1 n (a.2.1 n hn), fun n hn => b.2.2 n (a.2.2 n hn)⟩

theorem RInv.within {h0 h : Heap} {p r : Resources} (hi : RInv h0 (some p) h r) (hv : ValidR h0 p) : Within h r p :=
  ⟨hi.ka.subset hv.va, hi.k4.subset hv.v4, hi.k6.subset hv.v6⟩

theorem RInv.same {h0 h : Heap} {parent : Option Resources} {r q : Resources} (hi : RInv h0 parent h r)
    (hv : ValidR h0 q) : SameRes h0 h q :=
  ⟨fun n => (numsOf_prefix hi.ka.pre hv.va n).symm, fun n => (numsOf_prefix hi.k4.pre hv.v4 n).symm,
    fun n => (numsOf_prefix hi.k6.pre hv.v6 n).symm⟩

theorem Within.mono {h h' : Heap} {r s : Resources} (w : Within h r s) (a : SameRes h h' r) (b : SameRes h h' s) :
    Within h' r s :=
  ⟨fun n hn => (b.1 n).1 (w.1 n ((a.1 n).2 hn)), fun n hn => (b.2.1 n).1 (w.2.1 n ((a.2.1 n).2 hn)),
    fun n hn => (b.2.2 n).1 (w.2.2 n ((a.2.2 n).2 hn))⟩

structure SInv (s : VState) : Prop where
  good : GoodHeap s.1
  valid : ∀ r ∈ s.2, ValidR s.1 r
  sub : s.2.Pairwise (Within s.1)

theorem SInv.old {h h' : Heap} {st : List Resources} (hs : SInv (h, st)) {parent : Option Resources} {r : Resources}
    (hi : RInv h parent h' r) : SInv (h', st) := by
  refine ⟨hi.goodHeap, fun q hq => hi.validOld (hs.valid q hq), ?_⟩
  exact hs.sub.imp_of_mem (fun hx hy hw => hw.mono (hi.same (hs.valid _ hx)) (hi.same (hs.valid _ hy)))

theorem SInv.head {h : Heap} {st : List Resources} (hs : SInv (h, st)) : ∀ p, st.head? = some p → ValidR h p := by
  intro p hp
  cases st with
  | nil => cases hp
  | cons a st => cases hp; exact hs.valid _ List.mem_cons_self

theorem initResources_out {h h' : Heap} {st : List Resources} {policy : Policy} {exts : List Ext} {type : CertType}
    {r : Resources} {o : Out} (hs : SInv (h, st)) (he : initResources h st.head? policy exts type = (h', r, o)) :
    ROut h st.head? (h', r, o) := by
  rw [← he]; exact initResources_inv hs.good hs.head policy exts type

theorem getResources_out {h h' : Heap} {top : Resources} {st : List Resources} {policy : Policy} {force : Bool}
    {exts : List Ext} {type : CertType} {r : Resources} {o : Out} (hs : SInv (h, top :: st))
    (he : certificateGetResources h (Resources.create policy force) (some top) exts type = (h', r, o)) :
    ROut h (some top) (h', r, o) := by
  rw [← he]; exact certificateGetResources_inv hs.good hs.head policy force exts type

theorem reach_inv {s : VState} (hr : VReach s) : SInv s := by
  induction hr with
  | init => exact ⟨⟨by intro l hl; simp at hl, by intro l hl; simp at hl, by intro l hl; simp at hl⟩, by simp, by simp⟩
  | step _ hst ih =>
    cases hst with
    | push he =>
      have hi := initResources_out ih he
      have ho := ih.old hi.1
      refine ⟨ho.good, ?_, ?_⟩
      · intro q hq
        rcases List.mem_cons.1 hq with rfl | hq
        · exact hi.1.valid ih.head
        · exact ho.valid q hq
      · refine List.pairwise_cons.2 ⟨?_, ho.sub⟩
        intro q hq
        rename_i st _ _ _ _ _
        cases st with
        | nil => simp at hq
        | cons p st =>
          have hw := RInv.within hi.1 (ih.valid p List.mem_cons_self)
          rcases List.mem_cons.1 hq with rfl | hq
          · exact hw
          · exact hw.trans ((List.pairwise_cons.1 ho.sub).1 q hq)
    | reject he =>
      exact ih.old (initResources_out ih he).1
    | endEntity he =>
      exact ih.old (getResources_out ih he).1
    | pop => exact ⟨ih.good, fun q hq => ih.valid q (List.mem_cons_of_mem _ hq), (List.pairwise_cons.1 ih.sub).2⟩

/-! ### C25 -/

/-- C25. In every state of every validation, the AS numbers, IPv4 and IPv6 addresses of each certificate of the stack are
a subset of those of each certificate above it, up to the trust anchor. -/
theorem C25_chain (h : Heap) (st : List Resources) (hr : VReach (h, st)) : st.Pairwise (Within h) :=
  (reach_inv hr).sub

/-- C25, end entity certificates (the signer of a ROA, manifest or Ghostbusters record): whatever its extensions say, the
resources it is given are a subset of those of every certificate of the stack. -/
theorem C25_endEntity (h h' : Heap) (top : Resources) (st : List Resources) (hr : VReach (h, top :: st))
    (policy : Policy) (force : Bool) (exts : List Ext) (type : CertType) (r : Resources) (o : Out)
    (he : certificateGetResources h (Resources.create policy force) (some top) exts type = (h', r, o)) :
    ∀ a ∈ top :: st, Within h' r a := by
  have hs := reach_inv hr
  have hi := certificateGetResources_inv hs.good (parent := some top)
    (by intro p hp; cases hp; exact hs.valid _ List.mem_cons_self) policy force exts type
  rw [he] at hi
  have hw : Within h' r top := hi.1.within (hs.valid top List.mem_cons_self)
  intro a ha
  rcases List.mem_cons.1 ha with rfl | ha
  · exact hw
  · exact hw.trans ((List.pairwise_cons.1 (hs.old hi.1).sub).1 a ha)

/-- C25: what the certificates of the stack own does not change while they are there, whatever else is read, accepted or
rejected (a set shared through inheritance is never modified). -/
theorem C25_stable (h h' : Heap) (st st' : List Resources) (hr : VReach (h, st)) (hst : VStep (h, st) (h', st'))
    (r : Resources) (hm : r ∈ st) : SameRes h h' r := by
  have hs := reach_inv hr
  have hvr : ValidR h r := hs.valid r hm
  cases hst with
  | push he =>
    exact (initResources_out hs he).1.same hvr
  | reject he =>
    exact (initResources_out hs he).1.same hvr
  | endEntity he =>
    exact (getResources_out hs he).1.same hvr
  | pop => exact ⟨fun _ => .rfl, fun _ => .rfl, fun _ => .rfl⟩

/-- C25: a trust anchor is accepted only if it has some resource. -/
theorem C25_trustAnchor (h h' : Heap) (policy : Policy) (exts : List Ext) (r : Resources) (hg : VReach (h, []))
    (he : initResources h none policy exts .ta = (h', r, .ok)) :
    ∃ n, h'.asns r n ∨ h'.ip4s r n ∨ h'.ip6s r n := by
  have hs := reach_inv hg
  have hi := initResources_inv hs.good (parent := none) (by simp) policy exts .ta
  rw [he] at hi
  have hgood := hi.1.goodHeap
  have nonempty : ∀ {α : Type} {ok : α → Prop} {val : α → Rng} {h : Sets α} {p : Option Nat}, GoodH ok val h →
      emptySet h p = false → ∃ n, numsOf val h p n := by
    intro α ok val h p hg hne
    unfold emptySet at hne
    cases hd : h.deref p with
    | none => rw [hd] at hne; cases hne
    | some l =>
      rw [hd] at hne
      cases l with
      | nil => simp at hne
      | cons x l =>
        have hm : (x :: l) ∈ h := by
          cases p with
          | none => cases hd
          | some i => exact List.mem_of_getElem? hd
        exact ⟨(val x).min, x :: l, hd, val x, by simp, Nat.le_refl _, (hg _ hm).2.head⟩
  unfold initResources at he
  split at he
  · rename_i h1 r1 _
    split at he
    · cases he
    · rename_i hc
      cases he
      simp only [true_and, resourcesEmpty, Bool.and_eq_true, not_and] at hc
      by_cases c1 : emptySet h'.ha r.asn = true
      · by_cases c2 : emptySet h'.h4 r.ip4 = true
        · obtain ⟨n, hn⟩ := nonempty hgood.g6 (by simpa using hc ⟨c1, c2⟩)
          exact ⟨n, .inr (.inr hn)⟩
        · obtain ⟨n, hn⟩ := nonempty hgood.g4 (by simpa using c2)
          exact ⟨n, .inr (.inl hn)⟩
      · obtain ⟨n, hn⟩ := nonempty hgood.ga (by simpa using c1)
        exact ⟨n, .inl hn⟩
  · rename_i hno
    have : ∀ a b, certificateGetResources h (Resources.create policy false) none exts .ta = (a, b, .ok) → False := hno
    rw [he] at this
    exact absurd rfl (fun e => this h' r e)

/-! ### C69 -/

/-- C69 (part). Once there is a trust anchor on the stack, no certificate content makes the validator abort. -/
theorem C69_noAbort_partial (h : Heap) (top : Resources) (st : List Resources) (hr : VReach (h, top :: st))
    (policy : Policy) (force : Bool) (exts : List Ext) (type : CertType) :
    (initResources h (some top) policy exts type).2.2 ≠ .crit ∧
    (certificateGetResources h (Resources.create policy force) (some top) exts type).2.2 ≠ .crit := by
  have hs := reach_inv hr
  have hv : ∀ p, some top = some p → ValidR h p := by
    intro p hp; cases hp; exact hs.valid _ List.mem_cons_self
  exact ⟨(initResources_inv hs.good hv policy exts type).2.2 (by simp),
    (certificateGetResources_inv hs.good hv policy force exts type).2.2 (by simp)⟩

/-- C69 is false for trust anchors: one that inherits its AS numbers aborts the process. -/
theorem C69_refuted : ∃ exts, (initResources ⟨[], [], []⟩ none .rfc6484 exts .ta).2.2 = .crit :=
  ⟨[.asn true (some ⟨some .inherit, false⟩)], rfl⟩

/-! ### C70 -/

/-- The certificate has no resources of its own: for each kind it has none, or the very set of its issuer. -/
def OnlyInherits (h : Heap) (r p : Resources) : Prop :=
  ((∀ n, ¬ h.asns r n) ∨ ∀ n, h.asns r n ↔ h.asns p n) ∧ ((∀ n, ¬ h.ip4s r n) ∨ ∀ n, h.ip4s r n ↔ h.ip4s p n) ∧
  ((∀ n, ¬ h.ip6s r n) ∨ ∀ n, h.ip6s r n ↔ h.ip6s p n)

def PtrInherits (r p : Resources) : Prop :=
  r.forceInherit = true ∧ (r.asn = none ∨ r.asn = p.asn) ∧ (r.ip4 = none ∨ r.ip4 = p.ip4) ∧ (r.ip6 = none ∨ r.ip6 = p.ip6)

theorem inheritSet_ptr {α} (h : Sets α) {own p : Option Nat} (ho : own = none ∨ own = p) :
    (inheritSet (some p) h own).2.1 = none ∨ (inheritSet (some p) h own).2.1 = p := by
  unfold inheritSet
  simp only
  split
  · exact ho
  · exact .inr rfl

theorem addIp_ptr {h : Heap} {r p : Resources} (hp : PtrInherits r p) (b : IpBlock) :
    PtrInherits (resourcesAddIp h r (some p) b).2.1 p := by
  obtain ⟨h1, h2, h3, h4⟩ := hp
  unfold resourcesAddIp
  cases getAddrFamily b.family <;> cases b.choice <;>
    simp only [addList, h1, if_true, Option.map_some] <;> try exact ⟨rfl, h2, h3, h4⟩
  all_goals try exact ⟨h1, h2, h3, h4⟩
  · exact ⟨rfl, h2, inheritSet_ptr _ h3, h4⟩
  · exact ⟨rfl, h2, h3, inheritSet_ptr _ h4⟩

theorem addAsn_ptr {h : Heap} {r p : Resources} (hp : PtrInherits r p) (ids : AsIds) (allow : Bool) :
    PtrInherits (resourcesAddAsn h r (some p) ids allow).2.1 p := by
  have hp' := hp
  obtain ⟨h1, h2, h3, h4⟩ := hp
  unfold resourcesAddAsn
  split
  · exact hp'
  · split
    · exact hp'
    · split
      · exact hp'
      · split
        · exact hp'
        · exact ⟨h1, inheritSet_ptr _ h2, h3, h4⟩
      · simp only [addList, h1, if_true]; exact ⟨rfl, h2, h3, h4⟩

theorem addBlocks_ptr {p : Resources} (bs : List IpBlock) {h : Heap} {r : Resources} (hp : PtrInherits r p) :
    PtrInherits (addBlocks (some p) bs h r).2.1 p := by
  induction bs generalizing h r with
  | nil => exact hp
  | cons b bs ih =>
    have hb := addIp_ptr (h := h) hp b
    unfold addBlocks
    generalize resourcesAddIp h r (some p) b = x at hb
    obtain ⟨h', r', o⟩ := x
    cases o with
    | ok => exact ih hb
    | err => exact hb
    | crit => exact hb

theorem extLoop_ptr {p : Resources} (allow : Bool) (es : List Ext) (f g : Bool) {h : Heap} {r : Resources}
    (hp : PtrInherits r p) : PtrInherits (extLoop (some p) allow es f g h r).2.1 p := by
  induction es generalizing f g h r with
  | nil => unfold extLoop; split <;> exact hp
  | cons e es ih =>
    unfold extLoop
    split
    · split
      · exact hp
      · split
        · exact hp
        · rename_i blocks _ _
          have hb : PtrInherits (handleIpExtension h r (some p) blocks).2.1 p := by
            unfold handleIpExtension
            split
            · exact hp
            · exact addBlocks_ptr _ hp
            · split
              · exact hp
              · split
                · exact hp
                · exact addBlocks_ptr _ hp
            · exact hp
          generalize handleIpExtension h r (some p) blocks = x at hb
          obtain ⟨h', r', o⟩ := x
          cases o with
          | ok => exact ih _ _ hb
          | err => exact hb
          | crit => exact hb
    · split
      · exact hp
      · split
        · exact hp
        · rename_i ids _ _
          have hb : PtrInherits (handleAsnExtension h r (some p) ids allow).2.1 p := by
            unfold handleAsnExtension
            split
            · exact hp
            · exact addAsn_ptr hp _ _
          generalize handleAsnExtension h r (some p) ids allow = x at hb
          obtain ⟨h', r', o⟩ := x
          cases o with
          | ok => exact ih _ _ hb
          | err => exact hb
          | crit => exact hb
    · exact hp
    · exact ih _ _ hp

/-- C70. The end entity certificate of an object that must inherit (Ghostbusters records, RFC 6493) ends up with no set of
its own, whatever its extensions say. -/
theorem C70_forceInherit (h h' : Heap) (top : Resources) (policy : Policy) (exts : List Ext) (type : CertType)
    (r : Resources) (o : Out)
    (he : certificateGetResources h (Resources.create policy true) (some top) exts type = (h', r, o)) :
    OnlyInherits h' r top := by
  have hp := extLoop_ptr (p := top) (type ≠ .bgpsec) exts false false (h := h) (r := Resources.create policy true)
    ⟨rfl, .inl rfl, .inl rfl, .inl rfl⟩
  unfold certificateGetResources at he
  rw [he] at hp
  obtain ⟨_, h1, h2, h3⟩ := hp
  simp only at h1 h2 h3
  refine ⟨?_, ?_, ?_⟩
  · rcases h1 with h1 | h1
    · left; rintro n ⟨l, hl, _⟩; rw [h1] at hl; cases hl
    · right; intro n; simp only [Heap.asns, h1]
  · rcases h2 with h1 | h1
    · left; rintro n ⟨l, hl, _⟩; rw [h1] at hl; cases hl
    · right; intro n; simp only [Heap.ip4s, h1]
  · rcases h3 with h1 | h1
    · left; rintro n ⟨l, hl, _⟩; rw [h1] at hl; cases hl
    · right; intro n; simp only [Heap.ip6s, h1]

end Verif.Res
