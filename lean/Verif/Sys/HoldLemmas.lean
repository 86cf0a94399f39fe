import Verif.Sys.Lemmas
/-
The resources that a chain of certificates grants are held: lemmas.
-/
namespace Verif.Sys
open Verif.Tree Verif.Res
variable {ρ U X C S : Type}

theorem range4_encodes {e : AddrOrRange} {r : Rng} (h : range4 e = some r) : Encodes 32 e r := by
  unfold range4 decode4 at h
  cases e with
  | nothing => cases h
  | pfx s =>
    cases hp : prefix4Decode s with
    | none => simp [hp] at h
    | some q =>
      simp only [hp, Option.map_some, Option.some.injEq] at h
      obtain ⟨h1, h2⟩ := prefix4_canonical hp
      rw [pton4_rng h1 h2] at h
      subst h
      exact ⟨q.len, (C21_prefix4 s q.addr q.len).1 hp, rfl⟩
  | range a b =>
    cases hp : range4Decode a b with
    | none => simp [hp] at h
    | some q =>
      simp only [hp, Option.map_some, Option.some.injEq] at h
      subst h
      exact (C22_range4 a b q.min q.max).1 hp

theorem range6_encodes {e : AddrOrRange} {r : Rng} (h : range6 e = some r) : Encodes 128 e r := by
  unfold range6 decode6 at h
  cases e with
  | nothing => cases h
  | pfx s =>
    cases hp : prefix6Decode s with
    | none => simp [hp] at h
    | some q =>
      simp only [hp, Option.map_some, Option.some.injEq] at h
      obtain ⟨h0, h1, h2⟩ := prefix6_canonical hp
      rw [ptor6_rng h0 h1 h2] at h
      subst h
      exact ⟨q.len, ((C21_prefix6 s q.addr q.len).1 hp).2, rfl⟩
  | range a b =>
    cases hp : range6Decode a b with
    | none => simp [hp] at h
    | some q =>
      simp only [hp, Option.map_some, Option.some.injEq] at h
      subst h
      exact ((C22_range6 a b q.min q.max).1 hp).2.2

/-- What is granted is the issuer's, and it was listed or inherited. -/
theorem Grants.sub {issuer : Option (List Rng)} {policy : Policy} {force : Bool} {own : List Rng} {w : Says} (h : Grants issuer policy force own w)
    {n : Nat} (hn : Covered own n) :
    (∀ l, issuer = some l → Covered l n) ∧
    ((w = .inherits ∧ issuer = some own) ∨ ∃ l r, w = .lists l ∧ some r ∈ l ∧ r.Has n) := by
  cases w with
  | inherits =>
    refine ⟨?_, .inl ⟨rfl, h⟩⟩
    intro l hl
    have h : issuer = some own := h
    rw [h] at hl; cases hl; exact hn
  | lists l =>
    obtain ⟨_, _, _, xs, rfl, h2, _⟩ := h
    obtain ⟨r, hr, hr2⟩ := hn
    rw [h2] at hr
    obtain ⟨hr, hd⟩ := List.mem_filter.1 hr
    have hd : Has issuer r := by simpa using hd
    exact ⟨fun l hl => hd l hl n hr2, .inr ⟨_, r, rfl, List.mem_map_of_mem hr, hr2⟩⟩

/-- What an IP choice that is granted says, in terms of its encoding. -/
theorem choice_says {w : Nat} {decode : AddrOrRange → Option Rng} (hd : ∀ e r, decode e = some r → Encodes w e r) {family : List Byte}
    {exts : List Ext} {critical : Bool} {blocks : List IpBlock} (he : Ext.ip critical (some blocks) ∈ exts) {c : IpChoice}
    (hc : (⟨family, c⟩ : IpBlock) ∈ blocks) {m : Says} (hm : ipMeaning decode c = some m) {issuer : Option (List Rng)} {policy : Policy}
    {force : Bool} {own : List Rng} (h : Grants issuer policy force own m) {n : Nat} (hn : Covered own n) :
    (∀ l, issuer = some l → Covered l n) ∧ (States w family exts n ∨ (Inherits family exts ∧ issuer ≠ none)) := by
  obtain ⟨h1, h2⟩ := h.sub hn
  refine ⟨h1, ?_⟩
  cases c with
  | nothing => cases hm
  | inherit =>
    simp only [ipMeaning, Option.some.injEq] at hm
    subst hm
    rcases h2 with ⟨_, h2⟩ | ⟨l, r, h2, _⟩
    · exact .inr ⟨⟨critical, blocks, he, hc⟩, by rw [h2]; exact Option.some_ne_none _⟩
    · cases h2
  | aors l =>
    simp only [ipMeaning, Option.some.injEq] at hm
    subst hm
    rcases h2 with ⟨h2, _⟩ | ⟨l', r, h2, h3, h4⟩
    · cases h2
    · cases h2
      obtain ⟨e, he1, he2⟩ := List.mem_map.1 h3
      exact .inl ⟨critical, blocks, l, e, r, he, hc, he1, hd e r he2, h4⟩

theorem ips_mem {exts : List Ext} {c : Bool} {b : Option (List IpBlock)} (h : (c, b) ∈ ips exts) : Ext.ip c b ∈ exts := by
  unfold ips at h
  obtain ⟨e, he, h⟩ := List.mem_filterMap.1 h
  cases e <;> simp at h
  obtain ⟨rfl, rfl⟩ := h
  exact he

theorem not_covered_nil {n : Nat} : ¬ Covered [] n := by rintro ⟨r, hr, _⟩; cases hr

theorem GrantsAll.says4 {issuer : Option Vals} {policy : Policy} {force allow : Bool} {exts : List Ext} {v : Vals}
    (h : GrantsAll issuer policy force allow exts v) {n : Nat} (hn : Covered v.ip4 n) :
    (∀ i, issuer = some i → Covered i.ip4 n) ∧ (States 32 [0, 1] exts n ∨ (Inherits [0, 1] exts ∧ issuer ≠ none)) := by
  rcases h.2.2.1 with ⟨_, h4, _⟩ | ⟨blocks, hb, hi⟩
  · rw [h4] at hn; exact absurd hn not_covered_nil
  · have hmem := ips_mem (c := true) (b := some blocks) (by rw [hb]; exact List.mem_singleton_self _)
    have key : ∀ c w, (⟨[0, 1], c⟩ : IpBlock) ∈ blocks → ipMeaning range4 c = some w → Grants (issuer.map (·.ip4)) policy force v.ip4 w →
        (∀ i, issuer = some i → Covered i.ip4 n) ∧ (States 32 [0, 1] exts n ∨ (Inherits [0, 1] exts ∧ issuer ≠ none)) := by
      intro c w h1 h2 h3
      obtain ⟨k1, k2⟩ := choice_says (fun e r => range4_encodes) hmem h1 h2 h3 hn
      refine ⟨fun i hi => k1 _ (by rw [hi]; rfl), k2.imp id (fun k => ⟨k.1, ?_⟩)⟩
      rintro rfl; exact k.2 rfl
    rcases hi with ⟨c, w, rfl, h2, h3, _⟩ | ⟨c, w, _, _, _, h4⟩ | ⟨c, d, w, w', rfl, h2, _, h3, _⟩
    · exact key c w (by simp) h2 h3
    · rw [h4] at hn; exact absurd hn not_covered_nil
    · exact key c w (by simp) h2 h3

theorem GrantsAll.says6 {issuer : Option Vals} {policy : Policy} {force allow : Bool} {exts : List Ext} {v : Vals}
    (h : GrantsAll issuer policy force allow exts v) {n : Nat} (hn : Covered v.ip6 n) :
    (∀ i, issuer = some i → Covered i.ip6 n) ∧ (States 128 [0, 2] exts n ∨ (Inherits [0, 2] exts ∧ issuer ≠ none)) := by
  rcases h.2.2.1 with ⟨_, _, h4⟩ | ⟨blocks, hb, hi⟩
  · rw [h4] at hn; exact absurd hn not_covered_nil
  · have hmem := ips_mem (c := true) (b := some blocks) (by rw [hb]; exact List.mem_singleton_self _)
    have key : ∀ c w, (⟨[0, 2], c⟩ : IpBlock) ∈ blocks → ipMeaning range6 c = some w → Grants (issuer.map (·.ip6)) policy force v.ip6 w →
        (∀ i, issuer = some i → Covered i.ip6 n) ∧ (States 128 [0, 2] exts n ∨ (Inherits [0, 2] exts ∧ issuer ≠ none)) := by
      intro c w h1 h2 h3
      obtain ⟨k1, k2⟩ := choice_says (fun e r => range6_encodes) hmem h1 h2 h3 hn
      refine ⟨fun i hi => k1 _ (by rw [hi]; rfl), k2.imp id (fun k => ⟨k.1, ?_⟩)⟩
      rintro rfl; exact k.2 rfl
    rcases hi with ⟨c, w, _, _, _, h4⟩ | ⟨c, w, rfl, h2, h3, _⟩ | ⟨c, d, w, w', rfl, _, h2, _, h3⟩
    · rw [h4] at hn; exact absurd hn not_covered_nil
    · exact key c w (by simp) h2 h3
    · exact key d w' (by simp) h2 h3

/-- One kind of addresses along a chain. -/
structure Kind where
  w : Nat
  family : List Byte
  get : Vals → List Rng
  law : ∀ {issuer : Option Vals} {policy : Policy} {force allow : Bool} {exts : List Ext} {v : Vals},
    GrantsAll issuer policy force allow exts v → ∀ {n : Nat}, Covered (get v) n →
    (∀ i, issuer = some i → Covered (get i) n) ∧ (States w family exts n ∨ (Inherits family exts ∧ issuer ≠ none))

def kind4 : Kind := ⟨32, [0, 1], (·.ip4), fun h _ hn => h.says4 hn⟩
def kind6 : Kind := ⟨128, [0, 2], (·.ip6), fun h _ hn => h.says6 hn⟩

theorem CaOk.grants {p : Pki ρ U X C S} {ch : List (Anc U X Vals)} {parent : Option (Point U C)} {u : U} {a : Anc U X Vals} {pp : Point U C}
    (h : CaOk p ch parent u a pp) : ∃ allow, GrantsAll (ch.head?.map Anc.r) (p.policy a.x) false allow (p.exts a.x) a.r := by
  obtain ⟨_, _, _, _, _, _, _, _, _, t, _, _, _, _, _, _, _, _, _, _, _, _, h, _⟩ := h
  exact ⟨_, h.1⟩

theorem certified_holds (k : Kind) {p : Pki ρ U X C S} {root : U} {chain : List (Anc U X Vals)} {pp : Point U C} (h : Certified p root chain pp) :
    ∀ a, chain.head? = some a → ∀ n, Covered (k.get a.r) n →
      (∀ b ∈ chain, Covered (k.get b.r) n) ∧ Holds k.w k.family (chain.map fun b => p.exts b.x) n := by
  induction h with
  | @root a pp hok =>
    rintro a' ⟨⟩ n hn
    obtain ⟨allow, hg⟩ := hok.grants
    refine ⟨fun b hb => by cases List.mem_singleton.1 hb; exact hn, ?_⟩
    rcases (k.law hg hn).2 with h | ⟨_, h⟩
    · exact .root h
    · exact absurd rfl h
  | @listed chain q u a pp hc hu hok ih =>
    rintro a' ⟨⟩ n hn
    obtain ⟨allow, hg⟩ := hok.grants
    cases chain with
    | nil => cases hc
    | cons b ch =>
      obtain ⟨k1, k2⟩ := k.law hg hn
      obtain ⟨i1, i2⟩ := ih b rfl n (k1 b.r rfl)
      refine ⟨fun c hc => ?_, ?_⟩
      · rcases List.mem_cons.1 hc with rfl | hc
        · exact hn
        · exact i1 c hc
      · rcases k2 with h | ⟨h, _⟩
        · exact .stated h i2
        · exact .inherited h i2

/-- The same for the certificate of a ROA. -/
theorem asserted_holds (k : Kind) {p : Pki ρ U X C S} {root : U} {chain : List (Anc U X Vals)} {pp : Point U C} (h : Certified p root chain pp)
    {v : Vrp} {exts : List Ext} {ee : Vals} (ha : Asserted p chain pp v exts ee) {n : Nat} (hn : Covered (k.get ee) n) :
    (∀ b ∈ chain, Covered (k.get b.r) n) ∧ Holds k.w k.family (exts :: chain.map fun b => p.exts b.x) n := by
  obtain ⟨u, s₀, s₁, s₂, f, roa, a, k1, k2, k3, k4, k5, k6, k7, k8, k9⟩ := ha
  obtain ⟨i1, i2⟩ := k.law k8 hn
  obtain ⟨j1, j2⟩ := certified_holds k h a k2 n (i1 a.r rfl)
  refine ⟨j1, ?_⟩
  rcases i2 with h | ⟨h, _⟩
  · exact .stated h j2
  · exact .inherited h j2

theorem mem_takeWhile {α} {q : α → Bool} {l : List α} {a : α} (h : a ∈ l.takeWhile q) : q a = true ∧ a ∈ l := by
  induction l with
  | nil => cases h
  | cons b l ih =>
    rw [List.takeWhile_cons] at h
    split at h
    · rename_i hb
      rcases List.mem_cons.1 h with rfl | h
      · exact ⟨hb, List.mem_cons_self⟩
      · exact ⟨(ih h).1, List.mem_cons_of_mem _ (ih h).2⟩
    · cases h

theorem roaVrps_mem {ee : Vals} {roa : Roa} {v : Vrp} (h : v ∈ roaVrps ee roa) :
    Vrp.In ee v ∧ be roa.asId < 2 ^ 32 ∧ ∃ b ∈ roa.blocks, (b.family = [0, 1] ∨ b.family = [0, 2]) ∧ ∃ a ∈ b.addresses,
      stated (be roa.asId) (b.family.getD 1 0) a = some v := by
  unfold roaVrps at h
  split at h
  · rename_i hc
    obtain ⟨o, ho, rfl⟩ := List.mem_filterMap.1 h
    have hin : Vrp.In ee v := by simpa using (mem_takeWhile ho).1
    refine ⟨hin, hc.2, ?_⟩
    have hm : some v ∈ items (be roa.asId) roa.blocks := (mem_takeWhile ho).2
    obtain ⟨b, hb, hm⟩ := List.mem_flatMap.1 hm
    split at hm
    · rename_i hf
      obtain ⟨a, ha, e⟩ := List.mem_map.1 hm
      exact ⟨b, hb, hf.1, a, ha, e⟩
    · simp at hm
  · cases h

theorem stated_wf {asn : Nat} (hasn : asn < 2 ^ 32) {family : Byte} {a : RoaAddr} {v : Vrp} (h : stated asn family a = some v) :
    v.WellFormed ∧ v.asn = asn := by
  unfold stated at h
  have ha : (BitVec.ofNat 32 asn).toNat = asn := by simp [BitVec.toNat_ofNat]; omega
  split at h
  · cases hp : prefix4Decode a.address with
    | none => simp [hp] at h
    | some q =>
      rw [hp, Option.bind_some] at h
      cases hm : roaMaxLength 32 q.len a.maxLength with
      | none => rw [hm] at h; cases h
      | some n =>
        rw [hm] at h; cases h
        obtain ⟨h1, h2⟩ := prefix4_canonical hp
        obtain ⟨h3, h4, _⟩ := roaMaxLength_some h1 hm
        have hn : (BitVec.ofNat 8 n).toNat = n := by simp [BitVec.toNat_ofNat]; omega
        exact ⟨⟨by omega, by omega, h2⟩, ha⟩
  · split at h
    · cases hp : prefix6Decode a.address with
      | none => simp [hp] at h
      | some q =>
        rw [hp, Option.bind_some] at h
        cases hm : roaMaxLength 128 q.len a.maxLength with
        | none => rw [hm] at h; cases h
        | some n =>
          rw [hm] at h; cases h
          obtain ⟨h0, h1, h2⟩ := prefix6_canonical hp
          obtain ⟨h3, h4, _⟩ := roaMaxLength_some h1 hm
          have hn : (BitVec.ofNat 8 n).toNat = n := by simp [BitVec.toNat_ofNat]; omega
          exact ⟨⟨by omega, by omega, h0, h2⟩, ha⟩
    · cases h

end Verif.Sys
