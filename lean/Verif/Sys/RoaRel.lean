import Verif.Sys.ResRel2
/-
Pointers and values: whole certificates, and ROAs.
-/
namespace Verif.Sys
open Verif.Tree Verif.Res

theorem GrantsAll.unique {issuer : Option Vals} {policy : Policy} {force allow : Bool} {exts : List Ext} {v v' : Vals}
    (h : GrantsAll issuer policy force allow exts v) (h' : GrantsAll issuer policy force allow exts v') : v' = v := by
  obtain ⟨_, _, a, b⟩ := h
  obtain ⟨_, _, a', b'⟩ := h'
  have e1 : v'.ip4 = v.ip4 ∧ v'.ip6 = v.ip6 := by
    rcases a with ⟨a, a1, a2⟩ | ⟨bs, a, a1⟩
    · rcases a' with ⟨_, c1, c2⟩ | ⟨bs', a', _⟩
      · exact ⟨c1.trans a1.symm, c2.trans a2.symm⟩
      · rw [a] at a'; cases a'
    · rcases a' with ⟨a', _⟩ | ⟨bs', a', c1⟩
      · rw [a] at a'; cases a'
      · rw [a] at a'
        simp only [List.cons.injEq, Prod.mk.injEq, Option.some.injEq, true_and, and_true] at a'
        subst a'
        exact a1.unique c1
  have e2 : v'.asn = v.asn := by
    rcases b with ⟨a, a1⟩ | ⟨bs, a, a1⟩
    · rcases b' with ⟨_, c1⟩ | ⟨bs', a', _⟩
      · exact c1.trans a1.symm
      · rw [a] at a'; cases a'
    · rcases b' with ⟨a', _⟩ | ⟨bs', a', c1⟩
      · rw [a] at a'; cases a'
      · rw [a] at a'
        simp only [List.cons.injEq, Prod.mk.injEq, Option.some.injEq, true_and, and_true] at a'
        subst a'
        exact a1.unique c1
  obtain ⟨x1, x2, x3⟩ := v
  obtain ⟨y1, y2, y3⟩ := v'
  simp_all

theorem RRel.validR {h : Heap} {r : Resources} {v : Vals} (k : RRel h r v) : ValidR h r := ⟨k.k4.valid, k.k6.valid, k.ka.valid⟩

theorem IRel.validR {h : Heap} {parent : Option Resources} {issuer : Option Vals} (k : IRel h parent issuer) :
    ∀ p, parent = some p → ValidR h p := by
  rintro p rfl
  cases issuer with
  | none => exact k.elim
  | some v => exact RRel.validR k

/-- What has to come out of a certificate. -/
structure COut (h : Heap) (spec : Vals → Prop) (x : Heap × Resources × Out) : Prop where
  good : GoodHeap x.1
  grow : Grow h x.1
  sound : x.2.2 = .ok → ∃ v, spec v ∧ RRel x.1 x.2.1 v
  complete : ∀ v, spec v → x.2.2 = .ok

theorem rest_iff (issuer : Option Vals) (policy : Policy) (force allow : Bool) (exts : List Ext) (v : Vals) :
    Rest issuer policy force allow false false ⟨[], [], []⟩ exts v ↔ GrantsAll issuer policy force allow exts v := by
  unfold Rest GrantsAll
  simp

theorem getResources_val {h : Heap} (hg : GoodHeap h) {parent : Option Resources} {issuer : Option Vals} (hi : IRel h parent issuer)
    (policy : Policy) (force : Bool) (exts : List Ext) (type : CertType) :
    COut h (GrantsAll issuer policy force (type ≠ .bgpsec) exts)
      (certificateGetResources h (Resources.create policy force) parent exts type) := by
  have inv := (certificateGetResources_inv hg hi.validR policy force exts type).1
  have l : Loop h policy force false false h (Resources.create policy force) ⟨[], [], []⟩ :=
    ⟨hg, Grow.refl h, ⟨KRel.nil _ _, KRel.nil _ _, KRel.nil _ _⟩, rfl, rfl, fun _ => ⟨rfl, rfl⟩, fun _ => rfl⟩
  obtain ⟨a, b⟩ := extLoop_out (allow := (type ≠ .bgpsec)) hi exts l
  refine ⟨inv.goodHeap, ⟨inv.k4.pre, inv.k6.pre, inv.ka.pre⟩, ?_, ?_⟩
  · intro ho
    obtain ⟨v, c, d⟩ := a _ _ (Prod.ext rfl (Prod.ext rfl ho))
    exact ⟨v, (rest_iff ..).1 c, d⟩
  · intro v hv
    exact b v ((rest_iff ..).2 hv)

theorem emptySet_iff {α} {val : α → Rng} {h : Sets α} {p : Option Nat} {l : List Rng} (k : KRel val h p l) :
    emptySet h p = true ↔ l = [] := by
  rw [← k.eq]
  unfold emptySet curr
  cases h.deref p with
  | none => simp
  | some m => simp

theorem initResources_val {h : Heap} (hg : GoodHeap h) {parent : Option Resources} {issuer : Option Vals} (hi : IRel h parent issuer)
    (policy : Policy) (exts : List Ext) (type : CertType) :
    COut h (GrantsCa issuer policy type exts) (initResources h parent policy exts type) := by
  obtain ⟨a, b, c, d⟩ := getResources_val hg hi policy false exts type
  unfold initResources
  generalize certificateGetResources h (Resources.create policy false) parent exts type = x at a b c d
  obtain ⟨h1, r1, o⟩ := x
  cases o with
  | err => exact ⟨a, b, (by rintro ⟨⟩), fun v hv => absurd (d v hv.1) (by simp)⟩
  | crit => exact ⟨a, b, (by rintro ⟨⟩), fun v hv => absurd (d v hv.1) (by simp)⟩
  | ok =>
    obtain ⟨v, hv, hr⟩ := c rfl
    have he : resourcesEmpty h1 r1 = true ↔ v.asn = [] ∧ v.ip4 = [] ∧ v.ip6 = [] := by
      unfold resourcesEmpty
      rw [Bool.and_eq_true, Bool.and_eq_true, emptySet_iff hr.ka, emptySet_iff hr.k4, emptySet_iff hr.k6, and_assoc]
    simp only [he]
    split
    · rename_i ht
      refine ⟨a, b, (by rintro ⟨⟩), ?_⟩
      rintro v' ⟨h1, h2⟩
      rw [hv.unique h1] at h2
      exact absurd ht.2 (h2 ht.1)
    · rename_i ht
      refine ⟨a, b, fun _ => ⟨v, ⟨hv, fun h1 h2 => ht ⟨h1, h2⟩⟩, hr⟩, fun _ _ => rfl⟩

/-! ### ROAs -/

theorem ofNat8_eq {asn : Nat} {h : Heap} (hg : GoodHeap h) {r : Resources} {v : Vals} (hr : RRel h r v) (family : Byte) (a : RoaAddr) :
    (∀ x, handleRoaAddr h r asn family a = some x ↔ stated asn family a = some x ∧ Vrp.In v x) := by
  intro x
  unfold handleRoaAddr stated
  split
  · unfold handleRoaV4
    cases hp : prefix4Decode a.address with
    | none => simp
    | some p =>
      simp only [Option.bind_some]
      cases hm : roaMaxLength 32 p.len a.maxLength with
      | none => simp
      | some n =>
        obtain ⟨h1, h2⟩ := prefix4_canonical hp
        have hc := contains4_true hg (r := r) h1 h2
        have hn : ∀ n, h.ip4s r n ↔ Covered v.ip4 n := hr.k4.nums
        simp only [hn] at hc
        simp only [Option.map_some]
        cases he : resourcesContains4 h r p with
        | none =>
          rw [he] at hc
          simp only [reduceCtorEq, Option.some.injEq, false_iff] at hc ⊢
          rintro ⟨rfl, h3⟩
          exact hc h3
        | some b =>
          rw [he] at hc
          cases b with
          | false =>
            simp only [Option.some.injEq, Bool.false_eq_true, reduceCtorEq, false_iff] at hc ⊢
            rintro ⟨rfl, h3⟩
            exact hc h3
          | true =>
            simp only [true_iff] at hc
            simp only [Option.some.injEq]
            exact ⟨fun h => ⟨h, by subst h; exact hc⟩, fun h => h.1⟩
  · split
    · unfold handleRoaV6
      cases hp : prefix6Decode a.address with
      | none => simp
      | some p =>
        simp only [Option.bind_some]
        cases hm : roaMaxLength 128 p.len a.maxLength with
        | none => simp
        | some n =>
          obtain ⟨h0, h1, h2⟩ := prefix6_canonical hp
          have hc := contains6_true hg (r := r) h0 h1 h2
          have hn : ∀ n, h.ip6s r n ↔ Covered v.ip6 n := hr.k6.nums
          simp only [hn] at hc
          simp only [Option.map_some]
          cases he : resourcesContains6 h r p with
          | none =>
            rw [he] at hc
            simp only [reduceCtorEq, Option.some.injEq, false_iff] at hc ⊢
            rintro ⟨rfl, h3⟩
            exact hc h3
          | some b =>
            rw [he] at hc
            cases b with
            | false =>
              simp only [Option.some.injEq, Bool.false_eq_true, reduceCtorEq, false_iff] at hc ⊢
              rintro ⟨rfl, h3⟩
              exact hc h3
            | true =>
              simp only [true_iff] at hc
              simp only [Option.some.injEq]
              exact ⟨fun h => ⟨h, by subst h; exact hc⟩, fun h => h.1⟩
    · simp

open Classical in
/-- An address that is acceptable. -/
noncomputable def fine (v : Vals) (o : Option Vrp) : Bool := decide (∃ x, o = some x ∧ Vrp.In v x)

theorem fine_some {v : Vals} {x : Vrp} : fine v (some x) = true ↔ Vrp.In v x := by simp [fine]
theorem fine_none {v : Vals} : fine v none = false := by simp [fine]

theorem takeWhile_all {α} (p : α → Bool) (l m : List α) (h : ∀ a ∈ l, p a = true) : (l ++ m).takeWhile p = l ++ m.takeWhile p := by
  induction l with
  | nil => rfl
  | cons a l ih =>
    rw [List.cons_append, List.takeWhile_cons, if_pos (h a List.mem_cons_self), ih (fun b hb => h b (List.mem_cons_of_mem _ hb)), List.cons_append]

theorem takeWhile_some {α} (p : α → Bool) (l m : List α) (h : ¬ ∀ a ∈ l, p a = true) : (l ++ m).takeWhile p = l.takeWhile p := by
  induction l with
  | nil => simp at h
  | cons a l ih =>
    rw [List.cons_append, List.takeWhile_cons, List.takeWhile_cons]
    by_cases ha : p a = true
    · rw [if_pos ha, if_pos ha, ih]
      intro hl
      apply h
      intro b hb
      rcases List.mem_cons.1 hb with rfl | hb
      · exact ha
      · exact hl b hb
    · rw [if_neg ha, if_neg ha]

theorem roaAddrs_val {asn : Nat} {h : Heap} (hg : GoodHeap h) {r : Resources} {v : Vals} (hr : RRel h r v) (family : Byte) (l : List RoaAddr) :
    (roaAddrs h r asn family l).1 = ((l.map (stated asn family)).takeWhile (fine v)).filterMap id ∧
      ((roaAddrs h r asn family l).2 = true ↔ ∀ o ∈ l.map (stated asn family), fine v o = true) := by
  induction l with
  | nil => simp [roaAddrs]
  | cons a l ih =>
    have k := ofNat8_eq (asn := asn) hg hr family a
    unfold roaAddrs
    rw [List.map_cons, List.takeWhile_cons]
    cases hv : handleRoaAddr h r asn family a with
    | none =>
      have hf : fine v (stated asn family a) = false := by
        cases hs : stated asn family a with
        | none => exact fine_none
        | some x =>
          rw [Bool.eq_false_iff, ne_eq, fine_some]
          intro hx
          have := (k x).2 ⟨hs, hx⟩
          rw [hv] at this; cases this
      simp [hf]
    | some x =>
      obtain ⟨e1, e2⟩ := (k x).1 hv
      have hf : fine v (stated asn family a) = true := by rw [e1]; exact fine_some.2 e2
      rw [if_pos hf]
      constructor
      · simp [e1, ih.1]
      · simp only [ih.2, List.mem_cons, forall_eq_or_imp, hf, true_and]

theorem family_iff (o : List Byte) : (o = [0, 1] ∨ o = [0, 2]) ↔ o.length = 2 ∧ o.getD 0 0 = 0 ∧ (o.getD 1 0 = 1 ∨ o.getD 1 0 = 2) := by
  match o with
  | [] => simp
  | [_] => simp
  | [a, b] => simp; tauto
  | _ :: _ :: _ :: _ => simp

theorem roaBlocks_val {asn : Nat} {h : Heap} (hg : GoodHeap h) {r : Resources} {v : Vals} (hr : RRel h r v) (bs : List RoaBlock) :
    (roaBlocks h r asn bs).1 = ((items asn bs).takeWhile (fine v)).filterMap id := by
  induction bs with
  | nil => simp [roaBlocks, items]
  | cons b bs ih =>
    have hi : items asn (b :: bs) = (if (b.family = [0, 1] ∨ b.family = [0, 2]) ∧ b.addresses ≠ [] then
      b.addresses.map (stated asn (b.family.getD 1 0)) else [none]) ++ items asn bs := by simp [items]
    rw [hi]
    unfold roaBlocks
    by_cases hc : (b.family = [0, 1] ∨ b.family = [0, 2]) ∧ b.addresses ≠ []
    · obtain ⟨f1, f2, f3⟩ := (family_iff _).1 hc.1
      rw [if_pos hc, if_neg (by simp [f1]), if_neg (by simpa using f2), if_neg (by tauto), if_neg hc.2]
      obtain ⟨k1, k2⟩ := roaAddrs_val (asn := asn) hg hr (b.family.getD 1 0) b.addresses
      cases hx : roaAddrs h r asn (b.family.getD 1 0) b.addresses with
      | mk vs t =>
        rw [hx] at k1 k2
        cases t with
        | false =>
          have : ¬ ∀ o ∈ b.addresses.map (stated asn (b.family.getD 1 0)), fine v o = true := fun hall => by
            have := k2.2 hall; cases this
          rw [takeWhile_some _ _ _ this]
          exact k1
        | true =>
          have := k2.1 rfl
          rw [takeWhile_all _ _ _ this, List.filterMap_append, ← ih]
          have e : (b.addresses.map (stated asn (b.family.getD 1 0))).takeWhile (fine v) = b.addresses.map (stated asn (b.family.getD 1 0)) := by
            have := takeWhile_all (fine v) _ [] this
            simpa using this
          rw [e] at k1
          simp only at k1 ⊢
          rw [k1]
    · rw [if_neg hc]
      have hn : (([none] ++ items asn bs).takeWhile (fine v)).filterMap id = [] := by
        simp [List.takeWhile_cons, fine_none]
      rw [hn]
      rw [family_iff] at hc
      split_ifs <;> try rfl
      rename_i c1 c2 c3 c4
      exact absurd ⟨⟨by simpa using c1, by simpa using c2, by tauto⟩, c4⟩ hc

theorem roaVersionBad_iff (v : Option (List Byte)) : roaVersionBad v = false ↔ v = none ∨ ∃ b, v = some b ∧ be b = 0 := by
  cases v with
  | none => simp [roaVersionBad]
  | some b =>
    simp only [roaVersionBad, ne_eq, decide_not, Bool.not_eq_eq_eq_not, Bool.not_false, decide_eq_true_eq, integer2ulong_iff, reduceCtorEq,
      Option.some.injEq, exists_eq_left', false_or]
    omega

theorem handleRoa_val {h : Heap} (hg : GoodHeap h) {r : Resources} {v : Vals} (hr : RRel h r v) (roa : Roa) :
    (handleRoa h r roa).1 = roaVrps v roa := by
  unfold handleRoa roaVrps
  by_cases hv : roaVersionBad roa.version = false
  · rw [if_neg (by rw [hv]; simp)]
    have hv' := (roaVersionBad_iff _).1 hv
    cases hn : integer2ulong roa.asId with
    | none =>
      have : ¬ be roa.asId < 2 ^ 32 := by
        intro hlt
        have := (integer2ulong_iff roa.asId _).2 ⟨rfl, by omega⟩
        rw [hn] at this; cases this
      rw [if_neg (fun h => this h.2)]
    | some n =>
      obtain ⟨rfl, _⟩ := (integer2ulong_iff _ _).1 hn
      simp only
      by_cases hgt : be roa.asId > 0xFFFFFFFF
      · rw [if_pos hgt, if_neg (fun h => by have := h.2; omega)]
      · rw [if_neg hgt, if_pos (show _ ∧ _ from ⟨hv', by omega⟩)]
        by_cases hb : roa.blocks = []
        · rw [if_pos hb]
          simp [hb, items]
        · rw [if_neg hb]
          exact roaBlocks_val hg hr roa.blocks
  · have hv' : roaVersionBad roa.version = true := by simpa using hv
    rw [if_pos hv', if_neg]
    rintro ⟨h1, _⟩
    rw [(roaVersionBad_iff _).2 h1] at hv'
    cases hv'

/-- The VRPs of a ROA file, by value: none unless its content decodes, its signature is fine, and the issuer grants its certificate some
resources. -/
def Yields (issuer : Vals) (f : RoaFile) (vs : List Vrp) : Prop :=
  (∃ roa v, f.content = some roa ∧ f.envelopeOk = true ∧ GrantsAll (some issuer) f.policy false true f.exts v ∧ vs = roaVrps v roa) ∨
  (vs = [] ∧ ¬ ∃ roa v, f.content = some roa ∧ f.envelopeOk = true ∧ GrantsAll (some issuer) f.policy false true f.exts v)

theorem roaTraverse_val {h : Heap} (hg : GoodHeap h) {top : Resources} {issuer : Vals} (hr : RRel h top issuer) (f : RoaFile) :
    GoodHeap (Res.roaTraverse h top f).1 ∧ Grow h (Res.roaTraverse h top f).1 ∧ Yields issuer f (Res.roaTraverse h top f).2.1 := by
  unfold Res.roaTraverse Yields
  cases hc : f.content with
  | none => exact ⟨hg, Grow.refl h, .inr ⟨rfl, by simp⟩⟩
  | some roa =>
    cases he : f.envelopeOk with
    | false => exact ⟨hg, Grow.refl h, .inr ⟨rfl, by simp⟩⟩
    | true =>
      obtain ⟨a, b, c, d⟩ := getResources_val hg (parent := some top) (issuer := some issuer) hr f.policy false f.exts .ee
      simp only [Bool.not_true, Bool.false_eq_true, if_false]
      generalize certificateGetResources h (Resources.create f.policy false) (some top) f.exts .ee = x at a b c d
      obtain ⟨h1, r1, o⟩ := x
      cases o with
      | err => exact ⟨a, b, .inr ⟨rfl, by rintro ⟨_, v, _, _, hv⟩; exact absurd (d v hv) (by simp)⟩⟩
      | crit => exact ⟨a, b, .inr ⟨rfl, by rintro ⟨_, v, _, _, hv⟩; exact absurd (d v hv) (by simp)⟩⟩
      | ok =>
        obtain ⟨v, hv, hrel⟩ := c rfl
        have k := handleRoa_val a hrel roa
        simp only at k ⊢
        cases hx : handleRoa h1 r1 roa with
        | mk vs t =>
          rw [hx] at k
          cases t with
          | false => exact ⟨a, b, .inl ⟨roa, v, rfl, trivial, hv, k⟩⟩
          | true => exact ⟨a, b, .inl ⟨roa, v, rfl, trivial, hv, k⟩⟩

end Verif.Sys
