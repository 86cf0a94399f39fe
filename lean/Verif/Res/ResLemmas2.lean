import Verif.Res.ResLemmas
/-
Lemmas about the construction of all resources of a certificate.
-/
namespace Verif.Res

def KEmp {α} (P : Option (Option Nat)) (h : Sets α) (own : Option Nat) : Prop :=
  P ≠ some own → (own = none ↔ curr h own = [])

theorem inheritSet_inv {α} {ok : α → Prop} {val : α → Rng} {h0 h : Sets α} {P : Option (Option Nat)}
    {own : Option Nat} (hinv : KInv ok val h0 P h own) (hemp : KEmp P h own) :
    KInv ok val h0 P (inheritSet P h own).1 (inheritSet P h own).2.1 ∧
    KEmp P (inheritSet P h own).1 (inheritSet P h own).2.1 ∧ (P ≠ none → (inheritSet P h own).2.2 ≠ .crit) := by
  unfold inheritSet
  cases P with
  | none => exact ⟨hinv, hemp, by simp⟩
  | some p =>
    simp only
    split
    · exact ⟨hinv, hemp, by simp⟩
    · exact ⟨⟨hinv.pre, hinv.good, .inr (.inl rfl)⟩, fun h => absurd rfl h, by simp⟩

theorem addList_inv {α β} {ok : α → Prop} {cmp : α → α → Cmp} {val : α → Rng} (law : CmpLaw ok cmp val)
    {decode : β → Option α} (hdec : ∀ e x, decode e = some x → ok x ∧ (val x).min ≤ (val x).max)
    {h0 : Sets α} {P : Option (Option Nat)} (hv : ∀ p, P = some p → ValidP h0 p) (policy : Policy) (force : Bool)
    (es : List β) {h : Sets α} {own : Option Nat} (hinv : KInv ok val h0 P h own) (hemp : KEmp P h own) :
    KInv ok val h0 P (addList cmp decode P policy force es h own).1 (addList cmp decode P policy force es h own).2.1 ∧
    ((addList cmp decode P policy force es h own).2.2 = .ok →
      KEmp P (addList cmp decode P policy force es h own).1 (addList cmp decode P policy force es h own).2.1) ∧
    (addList cmp decode P policy force es h own).2.2 ≠ .crit := by
  unfold addList
  split
  · exact ⟨hinv, fun _ => hemp, by simp⟩
  · split
    · exact ⟨hinv, fun _ => hemp, by simp⟩
    · rename_i hlen
      by_cases hne : P = some own
      · subst hne
        cases es with
        | nil => simp at hlen
        | cons e es =>
          rw [addLoop_err]
          exact ⟨hinv, fun _ => hemp, by simp⟩
      · obtain ⟨h', own', o, h1, h2, h3, h4, h5, h6⟩ := addLoop_spec law hdec hv policy es hinv hne (hemp hne)
        rw [h1]
        refine ⟨h2, ?_, h3⟩
        intro ho _
        obtain ⟨xs, hxs, _⟩ := h5.1 ho
        exact (h6 ho xs hxs).2

/-- The pointers of the certificate are valid and its sets well-formed. -/
structure GoodHeap (h : Heap) : Prop where
  g4 : GoodH (fun _ => True) R32.rng h.h4
  g6 : GoodH R6.WF R6.rng h.h6
  ga : GoodH (fun _ => True) R32.rng h.ha

structure ValidR (h : Heap) (r : Resources) : Prop where
  v4 : ValidP h.h4 r.ip4
  v6 : ValidP h.h6 r.ip6
  va : ValidP h.ha r.asn

structure RInv (h0 : Heap) (parent : Option Resources) (h : Heap) (r : Resources) : Prop where
  k4 : KInv (fun _ => True) R32.rng h0.h4 (parent.map (·.ip4)) h.h4 r.ip4
  k6 : KInv R6.WF R6.rng h0.h6 (parent.map (·.ip6)) h.h6 r.ip6
  ka : KInv (fun _ => True) R32.rng h0.ha (parent.map (·.asn)) h.ha r.asn

structure REmp (parent : Option Resources) (h : Heap) (r : Resources) : Prop where
  e4 : KEmp (parent.map (·.ip4)) h.h4 r.ip4
  e6 : KEmp (parent.map (·.ip6)) h.h6 r.ip6
  ea : KEmp (parent.map (·.asn)) h.ha r.asn

def ROut (h0 : Heap) (parent : Option Resources) (x : Heap × Resources × Out) : Prop :=
  RInv h0 parent x.1 x.2.1 ∧ (x.2.2 = .ok → REmp parent x.1 x.2.1) ∧ (parent ≠ none → x.2.2 ≠ .crit)

theorem map_valid {h0 : Heap} {parent : Option Resources} (hv : ∀ p, parent = some p → ValidR h0 p) :
    (∀ p, parent.map (·.ip4) = some p → ValidP h0.h4 p) ∧ (∀ p, parent.map (·.ip6) = some p → ValidP h0.h6 p) ∧
    (∀ p, parent.map (·.asn) = some p → ValidP h0.ha p) := by
  cases parent with
  | none => simp
  | some q =>
    have := hv q rfl
    simp only [Option.map_some, Option.some.injEq, forall_eq']
    exact ⟨this.v4, this.v6, this.va⟩

theorem map_ne_none {α β} {f : α → β} {o : Option α} (h : o ≠ none) : o.map f ≠ none := by
  cases o with
  | none => exact absurd rfl h
  | some x => simp

theorem resourcesAddIp_inv {h0 h : Heap} {r : Resources} {parent : Option Resources}
    (hv : ∀ p, parent = some p → ValidR h0 p) (hi : RInv h0 parent h r) (he : REmp parent h r) (b : IpBlock) :
    ROut h0 parent (resourcesAddIp h r parent b) := by
  obtain ⟨v4, v6, va⟩ := map_valid hv
  unfold resourcesAddIp
  cases getAddrFamily b.family with
  | bad => exact ⟨hi, fun _ => he, by simp⟩
  | ip4 =>
    cases b.choice with
    | nothing => exact ⟨hi, fun _ => he, by simp⟩
    | inherit =>
      obtain ⟨a1, a2, a3⟩ := inheritSet_inv hi.k4 he.e4
      exact ⟨⟨a1, hi.k6, hi.ka⟩, fun _ => ⟨a2, he.e6, he.ea⟩, fun hp => a3 (map_ne_none hp)⟩
    | aors l =>
      obtain ⟨a1, a2, a3⟩ := addList_inv law32 decode4_good v4 r.policy r.forceInherit l hi.k4 he.e4
      exact ⟨⟨a1, hi.k6, hi.ka⟩, fun ho => ⟨a2 ho, he.e6, he.ea⟩, fun _ => a3⟩
  | ip6 =>
    cases b.choice with
    | nothing => exact ⟨hi, fun _ => he, by simp⟩
    | inherit =>
      obtain ⟨a1, a2, a3⟩ := inheritSet_inv hi.k6 he.e6
      exact ⟨⟨hi.k4, a1, hi.ka⟩, fun _ => ⟨he.e4, a2, he.ea⟩, fun hp => a3 (map_ne_none hp)⟩
    | aors l =>
      obtain ⟨a1, a2, a3⟩ := addList_inv law6 decode6_good v6 r.policy r.forceInherit l hi.k6 he.e6
      exact ⟨⟨hi.k4, a1, hi.ka⟩, fun ho => ⟨he.e4, a2 ho, he.ea⟩, fun _ => a3⟩

theorem resourcesAddAsn_inv {h0 h : Heap} {r : Resources} {parent : Option Resources}
    (hv : ∀ p, parent = some p → ValidR h0 p) (hi : RInv h0 parent h r) (he : REmp parent h r) (ids : AsIds)
    (allow : Bool) : ROut h0 parent (resourcesAddAsn h r parent ids allow) := by
  obtain ⟨v4, v6, va⟩ := map_valid hv
  unfold resourcesAddAsn
  split
  · exact ⟨hi, fun _ => he, by simp⟩
  · split
    · exact ⟨hi, fun _ => he, by simp⟩
    · split
      · exact ⟨hi, fun _ => he, by simp⟩
      · split
        · exact ⟨hi, fun _ => he, by simp⟩
        · obtain ⟨a1, a2, a3⟩ := inheritSet_inv hi.ka he.ea
          exact ⟨⟨hi.k4, hi.k6, a1⟩, fun _ => ⟨he.e4, he.e6, a2⟩, fun hp => a3 (map_ne_none hp)⟩
      · rename_i l _
        obtain ⟨a1, a2, a3⟩ := addList_inv law32 decodeAs_good va r.policy r.forceInherit l hi.ka he.ea
        exact ⟨⟨hi.k4, hi.k6, a1⟩, fun ho => ⟨he.e4, he.e6, a2 ho⟩, fun _ => a3⟩

theorem addBlocks_inv {h0 : Heap} {parent : Option Resources} (hv : ∀ p, parent = some p → ValidR h0 p)
    (bs : List IpBlock) {h : Heap} {r : Resources} (hi : RInv h0 parent h r) (he : REmp parent h r) :
    ROut h0 parent (addBlocks parent bs h r) := by
  induction bs generalizing h r with
  | nil => exact ⟨hi, fun _ => he, by simp [addBlocks]⟩
  | cons b bs ih =>
    have hb := resourcesAddIp_inv hv hi he b
    unfold addBlocks
    generalize resourcesAddIp h r parent b = x at hb
    obtain ⟨h', r', o⟩ := x
    cases o with
    | ok => exact ih hb.1 (hb.2.1 rfl)
    | err => exact hb
    | crit => exact hb

theorem handleIp_inv {h0 h : Heap} {r : Resources} {parent : Option Resources}
    (hv : ∀ p, parent = some p → ValidR h0 p) (hi : RInv h0 parent h r) (he : REmp parent h r)
    (blocks : Option (List IpBlock)) : ROut h0 parent (handleIpExtension h r parent blocks) := by
  unfold handleIpExtension
  split
  · exact ⟨hi, fun _ => he, by simp⟩
  · exact addBlocks_inv hv _ hi he
  · split
    · exact ⟨hi, fun _ => he, by simp⟩
    · split
      · exact ⟨hi, fun _ => he, by simp⟩
      · exact addBlocks_inv hv _ hi he
  · exact ⟨hi, fun _ => he, by simp⟩

theorem handleAsn_inv {h0 h : Heap} {r : Resources} {parent : Option Resources}
    (hv : ∀ p, parent = some p → ValidR h0 p) (hi : RInv h0 parent h r) (he : REmp parent h r)
    (ids : Option AsIds) (allow : Bool) : ROut h0 parent (handleAsnExtension h r parent ids allow) := by
  unfold handleAsnExtension
  split
  · exact ⟨hi, fun _ => he, by simp⟩
  · exact resourcesAddAsn_inv hv hi he _ _

theorem extLoop_inv {h0 : Heap} {parent : Option Resources} (hv : ∀ p, parent = some p → ValidR h0 p)
    (allow : Bool) (es : List Ext) (f g : Bool) {h : Heap} {r : Resources} (hi : RInv h0 parent h r)
    (he : REmp parent h r) : ROut h0 parent (extLoop parent allow es f g h r) := by
  induction es generalizing f g h r with
  | nil =>
    unfold extLoop
    split <;> exact ⟨hi, fun _ => he, by simp⟩
  | cons e es ih =>
    unfold extLoop
    split
    · split
      · exact ⟨hi, fun _ => he, by simp⟩
      · split
        · exact ⟨hi, fun _ => he, by simp⟩
        · rename_i blocks _ _
          have hb := handleIp_inv hv hi he blocks
          generalize handleIpExtension h r parent blocks = x at hb
          obtain ⟨h', r', o⟩ := x
          cases o with
          | ok => exact ih _ _ hb.1 (hb.2.1 rfl)
          | err => exact hb
          | crit => exact hb
    · split
      · exact ⟨hi, fun _ => he, by simp⟩
      · split
        · exact ⟨hi, fun _ => he, by simp⟩
        · rename_i ids _ _
          have hb := handleAsn_inv hv hi he ids allow
          generalize handleAsnExtension h r parent ids allow = x at hb
          obtain ⟨h', r', o⟩ := x
          cases o with
          | ok => exact ih _ _ hb.1 (hb.2.1 rfl)
          | err => exact hb
          | crit => exact hb
    · exact ⟨hi, fun _ => he, by simp⟩
    · exact ih _ _ hi he

theorem create_inv {h0 : Heap} (hg : GoodHeap h0) (parent : Option Resources) (policy : Policy) (force : Bool) :
    RInv h0 parent h0 (Resources.create policy force) ∧ REmp parent h0 (Resources.create policy force) :=
  ⟨⟨⟨List.prefix_refl _, hg.g4, .inl rfl⟩, ⟨List.prefix_refl _, hg.g6, .inl rfl⟩, ⟨List.prefix_refl _, hg.ga, .inl rfl⟩⟩,
    ⟨fun _ => by simp [Resources.create, curr, Sets.deref], fun _ => by simp [Resources.create, curr, Sets.deref],
     fun _ => by simp [Resources.create, curr, Sets.deref]⟩⟩

theorem certificateGetResources_inv {h0 : Heap} (hg : GoodHeap h0) {parent : Option Resources}
    (hv : ∀ p, parent = some p → ValidR h0 p) (policy : Policy) (force : Bool) (exts : List Ext) (type : CertType) :
    ROut h0 parent (certificateGetResources h0 (Resources.create policy force) parent exts type) :=
  let ⟨a, b⟩ := create_inv hg parent policy force
  extLoop_inv hv _ _ _ _ a b

theorem initResources_inv {h0 : Heap} (hg : GoodHeap h0) {parent : Option Resources}
    (hv : ∀ p, parent = some p → ValidR h0 p) (policy : Policy) (exts : List Ext) (type : CertType) :
    ROut h0 parent (initResources h0 parent policy exts type) := by
  have h := certificateGetResources_inv hg hv policy false exts type
  unfold initResources
  generalize certificateGetResources h0 (Resources.create policy false) parent exts type = x at h
  obtain ⟨h', r', o⟩ := x
  cases o with
  | ok =>
    simp only
    split
    · exact ⟨h.1, by simp, by simp⟩
    · exact h
  | err => exact h
  | crit => exact h

theorem RInv.goodHeap {h0 h : Heap} {parent : Option Resources} {r : Resources} (hi : RInv h0 parent h r) :
    GoodHeap h := ⟨hi.k4.good, hi.k6.good, hi.ka.good⟩

theorem KInv.valid {α} {ok : α → Prop} {val : α → Rng} {h0 h : Sets α} {P : Option (Option Nat)} {own : Option Nat}
    (hi : KInv ok val h0 P h own) (hv : ∀ p, P = some p → ValidP h0 p) : ValidP h own := by
  intro i ho
  rcases hi.own with h1 | h1 | ⟨j, h1, h2, h3, _⟩
  · rw [h1] at ho; cases ho
  · exact Nat.lt_of_lt_of_le (hv own h1 i ho) hi.pre.length_le
  · rw [h1] at ho; cases ho; exact h3

theorem KInv.subset {α} {ok : α → Prop} {val : α → Rng} {h0 h : Sets α} {p own : Option Nat}
    (hi : KInv ok val h0 (some p) h own) (hv : ValidP h0 p) (n : Nat) (hn : numsOf val h own n) :
    numsOf val h p n := by
  rcases hi.own with h1 | h1 | ⟨j, _, _, _, h4⟩
  · rw [h1] at hn; obtain ⟨l, hl, _⟩ := hn; cases hl
  · cases h1; exact hn
  · rw [numsOf_prefix hi.pre hv]; exact h4 p rfl n hn

theorem RInv.valid {h0 h : Heap} {parent : Option Resources} {r : Resources} (hi : RInv h0 parent h r)
    (hv : ∀ p, parent = some p → ValidR h0 p) : ValidR h r := by
  obtain ⟨v4, v6, va⟩ := map_valid hv
  exact ⟨hi.k4.valid v4, hi.k6.valid v6, hi.ka.valid va⟩

theorem ValidP.mono {α} {h0 h : Sets α} (hp : h0 <+: h) {p : Option Nat} (hv : ValidP h0 p) : ValidP h p :=
  fun i hi => Nat.lt_of_lt_of_le (hv i hi) hp.length_le

theorem RInv.validOld {h0 h : Heap} {parent : Option Resources} {r : Resources} (hi : RInv h0 parent h r)
    {q : Resources} (hv : ValidR h0 q) : ValidR h q :=
  ⟨hv.v4.mono hi.k4.pre, hv.v6.mono hi.k6.pre, hv.va.mono hi.ka.pre⟩

end Verif.Res
