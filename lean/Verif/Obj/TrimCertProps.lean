import Verif.Obj.CertProps
import Verif.Res.TrimProps
/-
C206: certificates with the policy of RFC 8360 ("validation reconsidered"), from the bytes of their extensions to their resources.
-/
namespace Verif.Obj
open Verif.Res
open Verif.Asn (Nul)

/-! ### Specification -/

/-- The certificate lists addresses of this family (it doesn't inherit them). -/
def CertRes.Lists (c : CertRes) (v6 : Bool) : Prop := ∃ f ∈ c.ip, f.v6 = v6 ∧ f.res ≠ none

/-- It lists AS numbers. -/
def CertRes.ListsAs (c : CertRes) : Prop := ∃ l, c.as = some (some l)

/-- The addresses of the prefixes and ranges of the certificate that the issuer has completely (or those of the issuer, if they are inherited). -/
def CertRes.trimAddrs (c : CertRes) (v6 : Bool) (issuer : Nat → Prop) (n : Nat) : Prop :=
  ∃ f ∈ c.ip, f.v6 = v6 ∧ match f.res with
    | none => issuer n
    | some l => ∃ x ∈ l, (∀ m, (x.rng (width v6)).Has m → issuer m) ∧ (x.rng (width v6)).Has n

/-- The same for AS numbers. -/
def CertRes.trimAsns (c : CertRes) (issuer : Nat → Prop) (n : Nat) : Prop :=
  match c.as with
  | none => False
  | some none => issuer n
  | some (some l) => ∃ x ∈ l, (∀ m, x.rng.Has m → issuer m) ∧ x.rng.Has n

/-- The issuer has something of each kind that the certificate lists. -/
def CertRes.Kinds (c : CertRes) (h : Heap) (issuer : Resources) : Prop :=
  (c.Lists false → ∃ n, h.ip4s issuer n) ∧ (c.Lists true → ∃ n, h.ip6s issuer n) ∧ (c.ListsAs → ∃ n, h.asns issuer n)

/-- No prefix or range of the certificate is only partly the issuer's. -/
def CertRes.AllOrNothing (c : CertRes) (h : Heap) (issuer : Resources) : Prop :=
  (∀ f ∈ c.ip, ∀ l, f.res = some l → ∀ x ∈ l,
    (∀ n, (x.rng (width f.v6)).Has n → if f.v6 then h.ip6s issuer n else h.ip4s issuer n) ∨
    (∀ n, (x.rng (width f.v6)).Has n → ¬ if f.v6 then h.ip6s issuer n else h.ip4s issuer n)) ∧
  (∀ l, c.as = some (some l) → ∀ x ∈ l, (∀ n, x.rng.Has n → h.asns issuer n) ∨ (∀ n, x.rng.Has n → ¬ h.asns issuer n))

/-! ### Which sets are absent -/

/-- The pointer is NULL if and only if there are no numbers. -/
def PtrOk {α} (h : Sets α) (p : Option Nat) : Prop := p = none ↔ curr h p = []

structure PtrsOk (h : Heap) (r : Resources) : Prop where
  p4 : PtrOk h.h4 r.ip4
  p6 : PtrOk h.h6 r.ip6
  pa : PtrOk h.ha r.asn

theorem PtrOk.mono {α} {h h' : Sets α} (hp : h <+: h') {p : Option Nat} (hv : ValidP h p) (hk : PtrOk h p) : PtrOk h' p := by
  unfold PtrOk curr at *
  rwa [deref_prefix hp hv]

theorem PtrOk.new {α} {h h' : Sets α} (hp : h <+: h') {P : Option (Option Nat)} {own : Option Nat} (he : KEmp P h' own)
    (hP : P = some own → ValidP h own ∧ PtrOk h own) : PtrOk h' own := by
  by_cases h0 : P = some own
  · exact (hP h0).2.mono hp (hP h0).1
  · exact he h0

theorem PtrsOk.mono {h h' : Heap} {parent : Option Resources} {r q : Resources} (hi : RInv h parent h' r) (hv : ValidR h q) (hq : PtrsOk h q) : PtrsOk h' q :=
  ⟨hq.p4.mono hi.k4.pre hv.v4, hq.p6.mono hi.k6.pre hv.v6, hq.pa.mono hi.ka.pre hv.va⟩

theorem ptrs_ok {s : VState} (hr : VReach s) : ∀ r ∈ s.2, PtrsOk s.1 r := by
  induction hr with
  | init => simp
  | step hr0 hst ih =>
    have hs := reach_inv hr0
    cases hst with
    | push he =>
      rename_i h h' st policy exts type r
      have hi := initResources_out hs he
      intro q hq
      rcases List.mem_cons.1 hq with rfl | hq
      · have hem := hi.2.1 rfl
        have hk := hi.1
        have hhead : ∀ p, st.head? = some p → ValidR h p ∧ PtrsOk h p := by
          intro p hp
          cases st with
          | nil => cases hp
          | cons a st => cases hp; exact ⟨hs.valid _ List.mem_cons_self, ih _ List.mem_cons_self⟩
        refine ⟨PtrOk.new hk.k4.pre hem.e4 ?_, PtrOk.new hk.k6.pre hem.e6 ?_, PtrOk.new hk.ka.pre hem.ea ?_⟩
        all_goals
          intro hp
          obtain ⟨p, hp1, hp2⟩ := Option.map_eq_some_iff.1 hp
          obtain ⟨a, b⟩ := hhead p hp1
        · rw [← hp2]; exact ⟨a.v4, b.p4⟩
        · rw [← hp2]; exact ⟨a.v6, b.p6⟩
        · rw [← hp2]; exact ⟨a.va, b.pa⟩
      · exact (ih q hq).mono hi.1 (hs.valid q hq)
    | reject he => exact fun q hq => (ih q hq).mono (initResources_out hs he).1 (hs.valid q hq)
    | endEntity he => exact fun q hq => (ih q hq).mono (getResources_out hs he).1 (hs.valid q hq)
    | pop => exact fun q hq => ih q (List.mem_cons_of_mem _ hq)

theorem PtrOk.nums {α} {ok : α → Prop} {val : α → Rng} {h : Sets α} (hg : GoodH ok val h) {p : Option Nat} (hk : PtrOk h p) :
    p ≠ none ↔ ∃ n, numsOf val h p n := by
  constructor
  · intro hp
    have hne : curr h p ≠ [] := fun h0 => hp (hk.2 h0)
    unfold curr at hne
    cases hd : h.deref p with
    | none => rw [hd] at hne; exact absurd rfl hne
    | some l =>
      rw [hd] at hne
      have hmem : l ∈ h := by
        cases p with
        | none => cases hd
        | some i => exact List.mem_of_getElem? hd
      obtain ⟨-, hcan⟩ := hg l hmem
      cases l with
      | nil => exact absurd rfl hne
      | cons x l => exact ⟨(val x).min, _, hd, val x, by simp, Nat.le_refl _, hcan.head⟩
  · rintro ⟨n, l, hl, -⟩ rfl
    cases hl

/-! ### One kind -/

/-- The numbers of one kind. -/
def trimOf (rs : Option (Option (List Rng))) (issuer : Nat → Prop) (n : Nat) : Prop :=
  match rs with
  | none => False
  | some none => issuer n
  | some (some l) => ∃ r ∈ l, (∀ m, r.Has m → issuer m) ∧ r.Has n

theorem canonical_sub {l m : List Rng} (hs : List.Sublist l m) (h : Canonical m) : Canonical l := by
  have key : ∀ {m : List Rng}, Canonical m ↔ m.Pairwise (fun r s => r.max + 1 < s.min) ∧ ∀ r ∈ m, r.min ≤ r.max := by
    intro m
    induction m with
    | nil => simp [Canonical]
    | cons r m ih =>
      cases m with
      | nil => simp [Canonical]
      | cons s m =>
        simp only [Canonical, ih]
        constructor
        · rintro ⟨h1, h2, h3, h4⟩
          refine ⟨List.pairwise_cons.2 ⟨?_, h3⟩, ?_⟩
          · intro t ht
            rcases List.mem_cons.1 ht with rfl | ht
            · exact h2
            · have := (List.pairwise_cons.1 h3).1 t ht
              have := h4 s List.mem_cons_self
              omega
          · intro t ht
            rcases List.mem_cons.1 ht with rfl | ht
            · exact h1
            · exact h4 t ht
        · rintro ⟨h1, h2⟩
          obtain ⟨a, b⟩ := List.pairwise_cons.1 h1
          exact ⟨h2 r List.mem_cons_self, a s List.mem_cons_self, b, fun t ht => h2 t (List.mem_cons_of_mem _ ht)⟩
  rw [key] at h ⊢
  exact ⟨h.1.sublist hs, fun r hr => h.2 r (hs.subset hr)⟩

theorem out_trim {α β} {ok : α → Prop} {cmp : α → α → Cmp} {val : α → Rng} (law : CmpLaw ok cmp val)
    {decode : β → Option α} (hdec : ∀ e x, decode e = some x → ok x ∧ (val x).min ≤ (val x).max)
    {h : Sets α} (hg : GoodH ok val h) {p : Option Nat} (hv : ValidP h p) (hk : PtrOk h p)
    {es : Option (Option (List β))} {rs : Option (Option (List Rng))} (hd : Decodes decode val es rs) :
    ((outOf .rfc8360 cmp decode (some p) h es).2.2 = .ok ↔ ((∃ l, rs = some (some l)) → ∃ n, numsOf val h p n)) ∧
    ((outOf .rfc8360 cmp decode (some p) h es).2.2 = .ok → ∀ n,
      numsOf val (outOf .rfc8360 cmp decode (some p) h es).1 (outOf .rfc8360 cmp decode (some p) h es).2.1 n ↔ trimOf rs (numsOf val h p) n) := by
  match es, rs, hd with
  | none, none, _ => exact ⟨by simp [outOf], fun _ n => by simp [outOf, trimOf, numsOf, Sets.deref]⟩
  | some none, some none, _ => exact ⟨by simp [outOf, inheritSet], fun _ n => by simp [outOf, inheritSet, trimOf]⟩
  | some (some es), some (some l), ⟨hne, hcan, xs, hxs, hl⟩ =>
    have hes : es ≠ [] := by
      rintro rfl
      have : xs = [] := by simpa using hxs.symm
      rw [this] at hl
      exact hne hl.symm
    by_cases hp : p = none
    · subst hp
      have herr : (outOf .rfc8360 cmp decode (some none) h (some (some es))).2.2 = .err := by
        cases es with
        | nil => exact absurd rfl hes
        | cons e es => simp [outOf, addList, addLoop_err]
      rw [herr]
      refine ⟨⟨by simp, fun hx => ?_⟩, by simp⟩
      obtain ⟨n, k, hk, -⟩ := hx ⟨l, rfl⟩
      cases hk
    · obtain ⟨-, t2, t3⟩ := trim_generic law hdec hg hv hp .rfc8360 es hes
      change ((addList cmp decode (some p) .rfc8360 false es h none).2.2 = .ok ↔ _) ∧ ((addList cmp decode (some p) .rfc8360 false es h none).2.2 = .ok → _)
      constructor
      · refine ⟨fun _ _ => (hk.nums hg).1 hp, fun _ => (t2 rfl).2 ⟨xs, hxs, _, List.filter_sublist, rfl, ?_⟩⟩
        exact canonical_sub (List.filter_sublist.map val) (by rw [hl]; exact hcan)
      · intro ho n
        refine (t3 ho xs hxs n).trans ?_
        unfold trimOf
        rw [← hl]
        constructor
        · rintro ⟨x, hx, a, b⟩
          exact ⟨_, List.mem_map_of_mem hx, a, b⟩
        · rintro ⟨r, hr, a, b⟩
          obtain ⟨x, hx, rfl⟩ := List.mem_map.1 hr
          exact ⟨x, hx, a, b⟩

/-! ### All kinds -/

theorem trim4 {c : CertRes} (hv : c.Valid) (issuer : Nat → Prop) (n : Nat) : trimOf (rng4 c.ip) issuer n ↔ c.trimAddrs false issuer n := by
  have hfam := hv.families
  unfold CertRes.trimAddrs rng4 trimOf
  match c.ip, hfam with
  | [], _ => simp
  | [f], _ => cases hf : f.v6 <;> cases hr : f.res <;> simp [hf, hr, width]
  | [f, g], hfam =>
    have hf : f.v6 = false := by simp at hfam; exact hfam.1
    have hg : g.v6 = true := by simp at hfam; exact hfam.2
    cases hr : f.res <;> simp [hf, hg, hr, width]
  | _ :: _ :: _ :: _, hfam => simp at hfam

theorem trim6 {c : CertRes} (hv : c.Valid) (issuer : Nat → Prop) (n : Nat) : trimOf (rng6 c.ip) issuer n ↔ c.trimAddrs true issuer n := by
  have hfam := hv.families
  unfold CertRes.trimAddrs rng6 trimOf
  match c.ip, hfam with
  | [], _ => simp
  | [f], _ => cases hf : f.v6 <;> cases hr : f.res <;> simp [hf, hr, width]
  | [f, g], hfam =>
    have hf : f.v6 = false := by simp at hfam; exact hfam.1
    have hg : g.v6 = true := by simp at hfam; exact hfam.2
    cases hr : g.res <;> simp [hf, hg, hr, width]
  | _ :: _ :: _ :: _, hfam => simp at hfam

theorem trimA (c : CertRes) (issuer : Nat → Prop) (n : Nat) : trimOf (rngAs c.as) issuer n ↔ c.trimAsns issuer n := by
  unfold CertRes.trimAsns rngAs trimOf
  match c.as with
  | none => exact Iff.rfl
  | some none => exact Iff.rfl
  | some (some l) => simp

theorem lists4 {c : CertRes} (hv : c.Valid) : (∃ l, rng4 c.ip = some (some l)) ↔ c.Lists false := by
  have hfam := hv.families
  unfold CertRes.Lists rng4
  match c.ip, hfam with
  | [], _ => simp
  | [f], _ => cases hf : f.v6 <;> cases hr : f.res <;> simp [hf, hr]
  | [f, g], hfam =>
    have hf : f.v6 = false := by simp at hfam; exact hfam.1
    have hg : g.v6 = true := by simp at hfam; exact hfam.2
    cases hr : f.res <;> simp [hf, hg, hr]
  | _ :: _ :: _ :: _, hfam => simp at hfam

theorem lists6 {c : CertRes} (hv : c.Valid) : (∃ l, rng6 c.ip = some (some l)) ↔ c.Lists true := by
  have hfam := hv.families
  unfold CertRes.Lists rng6
  match c.ip, hfam with
  | [], _ => simp
  | [f], _ => cases hf : f.v6 <;> cases hr : f.res <;> simp [hf, hr]
  | [f, g], hfam =>
    have hf : f.v6 = false := by simp at hfam; exact hfam.1
    have hg : g.v6 = true := by simp at hfam; exact hfam.2
    cases hr : g.res <;> simp [hf, hg, hr]
  | _ :: _ :: _ :: _, hfam => simp at hfam

theorem listsA (c : CertRes) : (∃ l, rngAs c.as = some (some l)) ↔ c.ListsAs := by
  unfold CertRes.ListsAs rngAs
  match c.as with
  | none => simp
  | some none => simp
  | some (some l) => simp

theorem trimAddrs_sub {c : CertRes} {v6 : Bool} {issuer : Nat → Prop} {n : Nat} (h : c.trimAddrs v6 issuer n) : c.addrs v6 issuer n ∧ issuer n := by
  obtain ⟨f, hf, h6, hn⟩ := h
  cases hres : f.res with
  | none =>
    simp only [hres] at hn
    exact ⟨⟨f, hf, h6, by simp only [hres]; exact hn⟩, hn⟩
  | some l =>
    simp only [hres] at hn
    obtain ⟨x, hx, a, b⟩ := hn
    exact ⟨⟨f, hf, h6, by simp only [hres]; exact ⟨_, List.mem_map_of_mem hx, b⟩⟩, a n b⟩

theorem trimAsns_sub {c : CertRes} {issuer : Nat → Prop} {n : Nat} (h : c.trimAsns issuer n) : c.asns issuer n ∧ issuer n := by
  unfold CertRes.trimAsns at h
  unfold CertRes.asns
  match hc : c.as with
  | none => rw [hc] at h; exact h.elim
  | some none => rw [hc] at h; exact ⟨h, h⟩
  | some (some l) =>
    rw [hc] at h
    obtain ⟨x, hx, a, b⟩ := h
    exact ⟨⟨_, List.mem_map_of_mem hx, b⟩, a n b⟩

/-! ### C206 -/

/-- From the bytes in the extensions to the resources, with the policy of RFC 8360. A certificate that is signed by the certificate on top is accepted
if and only if the issuer has something of each kind that it lists; and then its resources are the prefixes and ranges that the issuer has completely. -/
theorem C206_resources_partial (h : Heap) (top : Resources) (st : List Resources) (hr : VReach (h, top :: st)) (c : CertRes) (hv : c.Valid) (hs : c.Small)
    (exts : List Ext) (he : (exts.filter (· ≠ .other)).Perm c.exts) (type : CertType) (ht : type ≠ .bgpsec) :
    (c.Kinds h top → ∃ h' r, certificateGetResources h (Resources.create .rfc8360 false) (some top) exts type = (h', r, .ok) ∧
      (∀ n, h'.ip4s r n ↔ c.trimAddrs false (h.ip4s top) n) ∧ (∀ n, h'.ip6s r n ↔ c.trimAddrs true (h.ip6s top) n) ∧
      (∀ n, h'.asns r n ↔ c.trimAsns (h.asns top) n)) ∧
    (¬ c.Kinds h top → (certificateGetResources h (Resources.create .rfc8360 false) (some top) exts type).2.2 ≠ .ok) := by
  have hi := reach_inv hr
  have hval := hi.valid top List.mem_cons_self
  have hpt := ptrs_ok hr top List.mem_cons_self
  obtain ⟨g1, g2⟩ := getResources_enc .rfc8360 h (some top) c hv hs exts he type ht
  obtain ⟨a4, b4⟩ := out_trim law32 decode4_good hi.good.g4 hval.v4 hpt.p4 (decodes4 hv)
  obtain ⟨a6, b6⟩ := out_trim law6 decode6_good hi.good.g6 hval.v6 hpt.p6 (decodes6 hv)
  obtain ⟨aa, ba⟩ := out_trim law32 decodeAs_good hi.good.ga hval.va hpt.pa (decodesA hv)
  simp only [Option.map_some] at g1 g2
  simp only [trim4 hv, trim6 hv, trimA, lists4 hv, lists6 hv, listsA] at a4 a6 aa b4 b6 ba
  constructor
  · rintro ⟨w4, w6, wa⟩
    have o4 := a4.2 w4
    have o6 := a6.2 w6
    have oa := aa.2 wa
    exact ⟨_, _, g1 ⟨o4, o6, oa⟩, b4 o4, b6 o6, ba oa⟩
  · intro hn
    apply g2
    rintro ⟨o4, o6, oa⟩
    exact hn ⟨a4.1 o4, a6.1 o6, aa.1 oa⟩

/-- Never more than RFC 8360 (4.2.4.4) gives: what is both listed and the issuer's. -/
theorem C206_neverMore (h : Heap) (top : Resources) (st : List Resources) (hr : VReach (h, top :: st)) (c : CertRes) (hv : c.Valid) (hs : c.Small)
    (exts : List Ext) (he : (exts.filter (· ≠ .other)).Perm c.exts) (type : CertType) (ht : type ≠ .bgpsec) (h' : Heap) (r : Resources)
    (hok : certificateGetResources h (Resources.create .rfc8360 false) (some top) exts type = (h', r, .ok)) :
    (∀ n, h'.ip4s r n → c.addrs false (h.ip4s top) n ∧ h.ip4s top n) ∧ (∀ n, h'.ip6s r n → c.addrs true (h.ip6s top) n ∧ h.ip6s top n) ∧
    (∀ n, h'.asns r n → c.asns (h.asns top) n ∧ h.asns top n) := by
  obtain ⟨c1, c2⟩ := C206_resources_partial h top st hr c hv hs exts he type ht
  have hk : c.Kinds h top := Classical.byContradiction fun hn => c2 hn (by rw [hok])
  obtain ⟨h1, r1, e, n4, n6, na⟩ := c1 hk
  rw [hok] at e
  cases e
  refine ⟨fun n hn => trimAddrs_sub ((n4 n).1 hn), fun n hn => trimAddrs_sub ((n6 n).1 hn), fun n hn => trimAsns_sub ((na n).1 hn)⟩

/-- If no prefix or range is only partly the issuer's, it's exactly what RFC 8360 says. -/
theorem C206_intersection_partial (h : Heap) (top : Resources) (st : List Resources) (hr : VReach (h, top :: st)) (c : CertRes) (hv : c.Valid) (hs : c.Small)
    (exts : List Ext) (he : (exts.filter (· ≠ .other)).Perm c.exts) (type : CertType) (ht : type ≠ .bgpsec) (hk : c.Kinds h top)
    (ha : c.AllOrNothing h top) :
    ∃ h' r, certificateGetResources h (Resources.create .rfc8360 false) (some top) exts type = (h', r, .ok) ∧
      (∀ n, h'.ip4s r n ↔ c.addrs false (h.ip4s top) n ∧ h.ip4s top n) ∧ (∀ n, h'.ip6s r n ↔ c.addrs true (h.ip6s top) n ∧ h.ip6s top n) ∧
      (∀ n, h'.asns r n ↔ c.asns (h.asns top) n ∧ h.asns top n) := by
  obtain ⟨h1, r1, e, n4, n6, na⟩ := (C206_resources_partial h top st hr c hv hs exts he type ht).1 hk
  refine ⟨h1, r1, e, fun n => (n4 n).trans ⟨trimAddrs_sub, ?_⟩, fun n => (n6 n).trans ⟨trimAddrs_sub, ?_⟩, fun n => (na n).trans ⟨trimAsns_sub, ?_⟩⟩
  · rintro ⟨⟨f, hf, h6, hn⟩, hi⟩
    refine ⟨f, hf, h6, ?_⟩
    cases hres : f.res with
    | none => exact hi
    | some l =>
      simp only [hres] at hn ⊢
      obtain ⟨x, hx, hn⟩ := hn
      obtain ⟨y, hy, rfl⟩ := List.mem_map.1 hx
      have := ha.1 f hf l hres y hy
      simp only [h6, Bool.false_eq_true, if_false] at this
      rcases this with a | a
      · exact ⟨y, hy, a, hn⟩
      · exact absurd hi (a n hn)
  · rintro ⟨⟨f, hf, h6, hn⟩, hi⟩
    refine ⟨f, hf, h6, ?_⟩
    cases hres : f.res with
    | none => exact hi
    | some l =>
      simp only [hres] at hn ⊢
      obtain ⟨x, hx, hn⟩ := hn
      obtain ⟨y, hy, rfl⟩ := List.mem_map.1 hx
      have := ha.1 f hf l hres y hy
      simp only [h6, if_true] at this
      rcases this with a | a
      · exact ⟨y, hy, a, hn⟩
      · exact absurd hi (a n hn)
  · rintro ⟨hn, hi⟩
    unfold CertRes.trimAsns
    unfold CertRes.asns at hn
    match hc : c.as with
    | none => rw [hc] at hn; exact hn
    | some none => exact hi
    | some (some l) =>
      rw [hc] at hn
      obtain ⟨x, hx, hn⟩ := hn
      obtain ⟨y, hy, rfl⟩ := List.mem_map.1 hx
      rcases ha.2 l hc y hy with a | a
      · exact ⟨y, hy, a, hn⟩
      · exact absurd hi (a n hn)

/-- The ROA: it's accepted if and only if the issuer has something of each kind that its certificate lists, and all its prefixes are in what remains of
the certificate; and then the VRPs are the ones that are written. -/
theorem C206_roa_partial (h : Heap) (top : Resources) (st : List Resources) (hr : VReach (h, top :: st)) (c : CertRes) (hc : c.Valid) (hs : c.Small)
    (o : RoaSpec) (hv : o.Valid) (hl : o.enc.length < 2 ^ 62) (nul : Nul) (rest : List Byte) (f : RoaFile)
    (hf : f.content = (decodeRoa nul (o.enc ++ rest)).toOption) (hp : f.policy = .rfc8360) (he : (f.exts.filter (· ≠ .other)).Perm c.exts)
    (henv : f.envelopeOk = true) (hrefs : f.refsOk = true) :
    (c.Kinds h top ∧ (∀ v ∈ o.vrps, ∀ n, v.addr ≤ n → n ≤ v.addr + (2 ^ (width v.v6 - v.len) - 1) →
        c.trimAddrs v.v6 (if v.v6 then h.ip6s top else h.ip4s top) n) →
      ∃ h' vs, roaTraverse h top f = (h', vs, .ok) ∧ vs.map plain = o.vrps) ∧
    (¬ (c.Kinds h top ∧ (∀ v ∈ o.vrps, ∀ n, v.addr ≤ n → n ≤ v.addr + (2 ^ (width v.v6 - v.len) - 1) →
        c.trimAddrs v.v6 (if v.v6 then h.ip6s top else h.ip4s top) n)) → (roaTraverse h top f).2.2 ≠ .ok) := by
  obtain ⟨c1, c2⟩ := C206_resources_partial h top st hr c hc hs f.exts he .ee (by simp)
  by_cases hw : c.Kinds h top
  · obtain ⟨h', r, e, n4, n6, -⟩ := c1 hw
    obtain ⟨r1, r2⟩ := C176_roa h top st hr o hv hl nul rest f hf henv hrefs h' r (by rw [hp]; exact e)
    have key : ∀ v : VrpSpec, v.CoveredBy h' r ↔ ∀ n, v.addr ≤ n → n ≤ v.addr + (2 ^ (width v.v6 - v.len) - 1) →
        c.trimAddrs v.v6 (if v.v6 then h.ip6s top else h.ip4s top) n := by
      intro v
      unfold VrpSpec.CoveredBy
      refine forall_congr' fun n => imp_congr Iff.rfl (imp_congr Iff.rfl ?_)
      cases v.v6
      · simpa using n4 n
      · simpa using n6 n
    simp only [key] at r1 r2
    exact ⟨fun x => ⟨h', r1 x.2⟩, fun x => r2 fun y => x ⟨hw, y⟩⟩
  · refine ⟨fun x => absurd x.1 hw, fun _ => ?_⟩
    have := c2 hw
    unfold roaTraverse
    rw [hf, decodeRoa_enc hv hl]
    simp only [Got.toOption, henv, Bool.not_true, Bool.false_eq_true, if_false, hp]
    cases hx : certificateGetResources h (Resources.create .rfc8360 false) (some top) f.exts .ee with
    | mk h' x =>
      obtain ⟨r, out⟩ := x
      rw [hx] at this
      cases out with
      | ok => exact absurd rfl this
      | err => simp
      | crit => simp

/-! ### It's not the intersection -/

namespace Ex
/-- 8.0.0.0/6 (only a quarter of it is the trust anchor's), and AS numbers 3 to 4 and 20 to 30. -/
def cb : CertRes := ⟨[⟨false, some [.pfx 0x08000000 6]⟩], some (some [.range 3 4, .range 20 30])⟩

theorem cb_valid : cb.Valid := by
  refine ⟨Or.inl (by decide), by decide, ?_, ?_⟩
  · intro f hf l hl
    simp only [cb, List.mem_singleton] at hf
    subst hf
    cases hl
    refine ⟨by decide, ?_, ?_⟩
    · intro x hx
      simp only [List.mem_singleton] at hx
      subst hx
      exact ⟨by decide, by decide, by decide⟩
    · simp [Res.Canonical, IpRes.rng]
  · intro l hl
    cases hl
    refine ⟨by decide, ?_, ?_⟩
    · intro x hx
      simp only [List.mem_cons, List.not_mem_nil, or_false] at hx
      rcases hx with rfl | rfl
      · exact ⟨by decide, by decide⟩
      · exact ⟨by decide, by decide⟩
    · simp [Res.Canonical, AsRes.rng]

theorem octs' : octets 3 = [3] ∧ octets 4 = [4] ∧ octets 20 = [20] ∧ octets 30 = [30] := by simp [octets]

theorem cb_small : cb.Small := by
  refine ⟨by decide, ?_⟩
  intro l hl
  cases hl
  simp only [encAs, List.flatMap_cons, AsRes.enc, derInt, intOctets, octs'.1, octs'.2.1, octs'.2.2.1, octs'.2.2.2]
  decide

theorem exts_self (c : CertRes) : (c.exts.filter (· ≠ .other)).Perm c.exts := by
  rw [List.filter_eq_self.2]
  intro x hx
  unfold CertRes.exts at hx
  rcases List.mem_append.1 hx with hx | hx
  · by_cases h0 : c.ip = []
    · rw [if_pos h0] at hx; simp at hx
    · rw [if_neg h0] at hx; simp only [List.mem_singleton] at hx; subst hx; simp
  · match hc : c.as with
    | none => rw [hc] at hx; simp at hx
    | some l => rw [hc] at hx; simp only [List.mem_singleton] at hx; subst hx; simp

/-- The trust anchor of CertProps. -/
theorem ta_pushed : ∃ h r, VReach (h, [r]) ∧ (∀ n, h.ip4s r n ↔ 0x0A000000 ≤ n ∧ n ≤ 0x0AFFFFFF) ∧ (∀ n, ¬ h.ip6s r n) ∧
    (∀ n, h.asns r n ↔ 1 ≤ n ∧ n ≤ 10) := by
  obtain ⟨h', r, e, n4, n6, na⟩ := C180_trustAnchor ⟨[], [], []⟩ .init ta ta_valid ta_small (by simp [ta]) (by decide) ta.exts (exts_self ta)
  refine ⟨h', r, .step .init (.push e), fun n => (n4 n).trans ?_, fun n hn => ?_, fun n => (na n).trans ?_⟩
  · simp [CertRes.addrs, ta, Covered, IpRes.rng, Rng.Has, width]
  · have := (n6 n).1 hn
    simp [CertRes.addrs, ta] at this
  · simp [CertRes.asns, ta, Covered, AsRes.rng, Rng.Has]

/-- C206 is false in general. The trust anchor has 10.0.0.0/8, and the certificate (policy of RFC 8360) lists 8.0.0.0/6: all of it is dropped, instead
of all but 10.0.0.0/8. (Of the AS numbers, 20 to 30 are dropped, and 3 to 4 remain; as they should.) -/
theorem C206_refuted : ∃ h top, VReach (h, [top]) ∧ ∃ h' r, certificateGetResources h (Resources.create .rfc8360 false) (some top) cb.exts .ca = (h', r, .ok) ∧
    cb.addrs false (h.ip4s top) 0x0A000001 ∧ h.ip4s top 0x0A000001 ∧ (∀ n, ¬ h'.ip4s r n) ∧ (∀ n, h'.asns r n ↔ n = 3 ∨ n = 4) := by
  obtain ⟨h, top, hr, t4, t6, ta⟩ := ta_pushed
  have hk : cb.Kinds h top := by
    refine ⟨fun _ => ⟨0x0A000000, (t4 _).2 (by decide)⟩, fun hl => ?_, fun _ => ⟨1, (ta _).2 (by decide)⟩⟩
    obtain ⟨f, hf, h6, -⟩ := hl
    simp only [cb, List.mem_singleton] at hf
    subst hf
    cases h6
  obtain ⟨h', r, e, n4, -, na⟩ := (C206_resources_partial h top [] hr cb cb_valid cb_small cb.exts (exts_self cb) .ca (by simp)).1 hk
  refine ⟨h, top, hr, h', r, e, ?_, (t4 _).2 (by decide), fun n hn => ?_, fun n => (na n).trans ?_⟩
  · refine ⟨_, List.mem_singleton.2 rfl, rfl, ⟨_, List.mem_singleton.2 rfl, ?_⟩⟩
    constructor <;> simp [IpRes.rng, width]
  · obtain ⟨f, hf, h6, hn⟩ := (n4 n).1 hn
    simp only [cb, List.mem_singleton] at hf
    subst hf
    obtain ⟨x, hx, ha, -⟩ := hn
    simp only [List.mem_singleton] at hx
    subst hx
    have := (t4 _).1 (ha 0x08000000 (by constructor <;> simp [IpRes.rng, width]))
    omega
  · simp only [CertRes.trimAsns, cb, List.mem_cons, List.not_mem_nil, or_false, exists_eq_or_imp, exists_eq_left, AsRes.rng, Rng.Has, ta]
    constructor
    · rintro (⟨-, a, b⟩ | ⟨a, -⟩)
      · omega
      · have := a 20 (by decide); omega
    · intro h0
      left
      exact ⟨fun m hm => by omega, by omega⟩

/-- And a certificate that lists IPv6 addresses, when the issuer has none, is rejected. -/
def cd : CertRes := ⟨[⟨true, some [.pfx 0 0]⟩], some none⟩

theorem cd_valid : cd.Valid := by
  refine ⟨Or.inl (by decide), by decide, ?_, ?_⟩
  · intro f hf l hl
    simp only [cd, List.mem_singleton] at hf
    subst hf
    cases hl
    refine ⟨by decide, ?_, ?_⟩
    · intro x hx
      simp only [List.mem_singleton] at hx
      subst hx
      exact ⟨by decide, by decide, by decide⟩
    · simp [Res.Canonical, IpRes.rng]
  · intro l hl
    cases hl

theorem C206_refuted_kind : ∃ h top, VReach (h, [top]) ∧ (certificateGetResources h (Resources.create .rfc8360 false) (some top) cd.exts .ca).2.2 ≠ .ok := by
  obtain ⟨h, top, hr, t4, t6, ta⟩ := ta_pushed
  refine ⟨h, top, hr, (C206_resources_partial h top [] hr cd cd_valid ⟨by decide, ?_⟩ cd.exts (exts_self cd) .ca (by simp)).2 ?_⟩
  · intro l hl
    cases hl
    decide
  · rintro ⟨-, k, -⟩
    obtain ⟨n, hn⟩ := k ⟨_, List.mem_singleton.2 rfl, rfl, by simp⟩
    exact t6 n hn

/-- The certificate of CertProps meets the hypotheses of `C206_intersection_partial`. -/
example : ∃ h top h' r, VReach (h, [top]) ∧ certificateGetResources h (Resources.create .rfc8360 false) (some top) ca.exts .ca = (h', r, .ok) ∧
    h'.ip4s r 0x0A010203 ∧ ¬ h'.ip4s r 0x0A030000 := by
  obtain ⟨h, top, hr, t4, t6, ta⟩ := ta_pushed
  have hk : ca.Kinds h top := by
    refine ⟨fun _ => ⟨0x0A000000, (t4 _).2 (by decide)⟩, fun hl => ?_, fun _ => ⟨1, (ta _).2 (by decide)⟩⟩
    obtain ⟨f, hf, h6, hn⟩ := hl
    simp only [ca, List.mem_cons, List.not_mem_nil, or_false] at hf
    rcases hf with rfl | rfl
    · cases h6
    · exact absurd rfl hn
  have ha : ca.AllOrNothing h top := by
    constructor
    · intro f hf l hl x hx
      simp only [ca, List.mem_cons, List.not_mem_nil, or_false] at hf
      rcases hf with rfl | rfl
      · cases hl
        simp only [List.mem_singleton] at hx
        subst hx
        left
        intro n hn
        obtain ⟨u, v⟩ := hn
        simp only [IpRes.rng] at u v
        simp only [Bool.false_eq_true, if_false]
        rw [t4]
        omega
      · cases hl
    · intro l hl x hx
      cases hl
      simp only [List.mem_singleton] at hx
      subst hx
      left
      intro n hn
      obtain ⟨u, v⟩ := hn
      simp only [AsRes.rng] at u v
      rw [ta]
      omega
  obtain ⟨h', r, e, n4, -, -⟩ := C206_intersection_partial h top [] hr ca ca_valid ca_small ca.exts (exts_self ca) .ca (by simp) hk ha
  refine ⟨h, top, h', r, hr, e, (n4 _).2 ⟨?_, (t4 _).2 (by decide)⟩, fun hn => ?_⟩
  · refine ⟨_, List.mem_cons_self, rfl, ⟨_, List.mem_singleton.2 rfl, ?_⟩⟩
    constructor <;> simp [IpRes.rng]
  · obtain ⟨⟨f, hf, h6, hn⟩, -⟩ := (n4 _).1 hn
    simp only [ca, List.mem_cons, List.not_mem_nil, or_false] at hf
    rcases hf with rfl | rfl
    · obtain ⟨x, hx, hn⟩ := hn
      simp only [List.map_cons, List.map_nil, List.mem_singleton] at hx
      subst hx
      obtain ⟨u, v⟩ := hn
      simp [IpRes.rng] at v
    · cases h6
/-- A ROA for 10.1.0.0/16 and 10.2.0.0/16 whose certificate is that of CertProps (10.1.0.0 to 10.2.255.255), with the policy of RFC 8360. -/
example : ∃ h top h' vs, VReach (h, [top]) ∧
    roaTraverse h top ⟨(decodeRoa .never (roa.enc ++ [])).toOption, true, .rfc8360, ca.exts, true⟩ = (h', vs, .ok) ∧ vs.map plain = roa.vrps := by
  obtain ⟨h, top, hr, t4, t6, ta⟩ := ta_pushed
  have hk : ca.Kinds h top := by
    refine ⟨fun _ => ⟨0x0A000000, (t4 _).2 (by decide)⟩, fun hl => ?_, fun _ => ⟨1, (ta _).2 (by decide)⟩⟩
    obtain ⟨f, hf, h6, hn⟩ := hl
    simp only [ca, List.mem_cons, List.not_mem_nil, or_false] at hf
    rcases hf with rfl | rfl
    · cases h6
    · exact absurd rfl hn
  have hp : ∀ v ∈ roa.vrps, ∀ n, v.addr ≤ n → n ≤ v.addr + (2 ^ (width v.v6 - v.len) - 1) →
      ca.trimAddrs v.v6 (if v.v6 then h.ip6s top else h.ip4s top) n := by
    intro v hv n h1 h2
    have hn : 0x0A010000 ≤ n ∧ n ≤ 0x0A02FFFF ∧ v.v6 = false := by
      simp only [roa, RoaSpec.vrps, List.flatMap_cons, List.flatMap_nil, List.map_cons, List.map_nil, List.append_nil, List.mem_cons, List.not_mem_nil, or_false] at hv
      rcases hv with rfl | rfl <;> simp [width] at h1 h2 ⊢ <;> omega
    rw [hn.2.2]
    refine ⟨_, List.mem_cons_self, rfl, _, List.mem_singleton.2 rfl, fun m hm => ?_, ?_⟩
    · obtain ⟨u, v⟩ := hm
      simp only [IpRes.rng] at u v
      simp only [Bool.false_eq_true, if_false]
      rw [t4]
      omega
    · exact ⟨hn.1, hn.2.1⟩
  obtain ⟨h', vs, e1, e2⟩ := (C206_roa_partial h top [] hr ca ca_valid ca_small roa roa_valid (by rw [roa_enc]; decide) .never []
    ⟨(decodeRoa .never (roa.enc ++ [])).toOption, true, .rfc8360, ca.exts, true⟩ rfl rfl (exts_self ca) rfl rfl).1 ⟨hk, hp⟩
  exact ⟨h, top, h', vs, hr, e1, e2⟩
end Ex

end Verif.Obj
