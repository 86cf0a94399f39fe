import Verif.Obj.IpLemmas
import Verif.Obj.SpecCert
/-
The resources of certificates that are written as in SpecCert.
-/
namespace Verif.Obj
open Verif.Res

/-- One kind of resources: none, inherited, or a list. -/
def outOf {α β : Type} (pol : Policy) (cmp : α → α → Cmp) (decode : β → Option α) (P : Option (Option Nat)) (h : Sets α) : Option (Option (List β)) → Sets α × Option Nat × Out
  | none => (h, none, .ok)
  | some none => inheritSet P h none
  | some (some es) => addList cmp decode P pol false es h none

/-- The numbers of such a kind. -/
def hasOf (rs : Option (Option (List Rng))) (issuer : Nat → Prop) (n : Nat) : Prop :=
  match rs with
  | none => False
  | some none => issuer n
  | some (some l) => Covered l n

/-- The elements decode to the ranges. -/
def Decodes {α β : Type} (decode : β → Option α) (val : α → Rng) : Option (Option (List β)) → Option (Option (List Rng)) → Prop
  | none, none => True
  | some none, some none => True
  | some (some es), some (some l) => l ≠ [] ∧ Canonical l ∧ ∃ xs : List α, es.map decode = xs.map some ∧ xs.map val = l
  | _, _ => False

theorem numsOf_curr {α} {val : α → Rng} {h : Sets α} {p : Option Nat} {n : Nat} : numsOf val h p n ↔ Covered ((curr h p).map val) n := by
  unfold numsOf curr
  cases h.deref p with
  | none => simp [Covered]
  | some l => simp

theorem out_spec {α β} {ok : α → Prop} {cmp : α → α → Cmp} {val : α → Rng} (law : CmpLaw ok cmp val)
    {decode : β → Option α} (hdec : ∀ e x, decode e = some x → ok x ∧ (val x).min ≤ (val x).max)
    {h : Sets α} (hg : GoodH ok val h) {P : Option (Option Nat)} (hv : ∀ p, P = some p → ValidP h p)
    {es : Option (Option (List β))} {rs : Option (Option (List Rng))} (hd : Decodes decode val es rs) (hi : P = none → rs ≠ some none) :
    ((∀ p, P = some p → ∀ n, hasOf rs (numsOf val h p) n → numsOf val h p n) →
      (outOf .rfc6484 cmp decode P h es).2.2 = .ok ∧
        ∀ n, numsOf val (outOf .rfc6484 cmp decode P h es).1 (outOf .rfc6484 cmp decode P h es).2.1 n ↔ hasOf rs (fun n => ∃ p, P = some p ∧ numsOf val h p n) n) ∧
    ((¬ ∀ p, P = some p → ∀ n, hasOf rs (numsOf val h p) n → numsOf val h p n) → (outOf .rfc6484 cmp decode P h es).2.2 ≠ .ok) := by
  match es, rs, hd with
  | none, none, _ =>
    refine ⟨fun _ => ⟨rfl, fun n => ?_⟩, fun hn => absurd (fun _ _ _ hf => hf.elim) hn⟩
    simp [outOf, hasOf, numsOf, Sets.deref]
  | some none, some none, _ =>
    refine ⟨fun _ => ?_, fun hn => absurd (fun _ _ _ hf => hf) hn⟩
    cases P with
    | none => exact absurd rfl (hi rfl)
    | some p => exact ⟨rfl, fun n => by simp [outOf, inheritSet, hasOf]⟩
  | some (some es), some (some l), ⟨hne, hcan, xs, hxs, hl⟩ =>
    have hle : es.length ≠ 0 := by
      intro h0
      have h1 := congrArg List.length hxs
      have h2 := congrArg List.length hl
      simp only [List.length_map] at h1 h2
      exact hne (List.length_eq_zero_iff.1 (by omega))
    have e0 : outOf .rfc6484 cmp decode P h (some (some es)) = addLoop cmp decode P .rfc6484 es h none := by
      simp [outOf, addList, hle]
    rw [e0]
    have hnonempty : ∃ n, Covered l n := by
      cases l with
      | nil => exact absurd rfl hne
      | cons r l => exact ⟨r.min, r, by simp, Nat.le_refl _, hcan.head⟩
    by_cases hP : P = some none
    · subst hP
      have herr : (addLoop cmp decode (some none) .rfc6484 es h none).2.2 = .err := by
        cases es with
        | nil => simp at hle
        | cons e es => simp [addLoop_err]
      refine ⟨fun hp => ?_, fun _ => by rw [herr]; simp⟩
      obtain ⟨n, hn⟩ := hnonempty
      obtain ⟨m, hm, _⟩ := hp none rfl n hn
      cases hm
    · have hinv : KInv ok val h P h none := ⟨List.prefix_refl _, hg, .inl rfl⟩
      obtain ⟨h', own', o, h1, h2, h3, h4, h5, h6⟩ := addLoop_spec law hdec (h0 := h) (P := P) hv .rfc6484 es hinv hP (by simp [curr, Sets.deref])
      rw [h1]
      simp only [curr, Sets.deref, Option.getD_none, List.nil_append] at h5 h6
      have hperm : (∀ x ∈ xs, Permits val h P x) ↔ ∀ p, P = some p → ∀ n, hasOf (some (some l)) (numsOf val h p) n → numsOf val h p n := by
        constructor
        · rintro hh p hp n ⟨r, hr, hn⟩
          rw [← hl] at hr
          obtain ⟨x, hx, rfl⟩ := List.mem_map.1 hr
          exact hh x hx p hp n hn
        · intro hh x hx p hp n hn
          exact hh p hp n ⟨val x, by rw [← hl]; exact List.mem_map_of_mem hx, hn⟩
      rw [← hperm]
      constructor
      · intro hp
        have hk : keep val h P xs = xs := by
          unfold keep; rw [List.filter_eq_self]; intro x hx; simpa using hp x hx
        have ho : o = .ok := h5.2 ⟨xs, hxs, fun _ => hp, by rw [hk, hl]; exact hcan⟩
        refine ⟨ho, fun n => ?_⟩
        rw [numsOf_curr]
        unfold curr
        rw [show (Sets.deref h' own').getD [] = keep val h P xs from (h6 ho xs hxs).1, hk, hl]
        rfl
      · intro hp ho
        obtain ⟨ys, hys, hy, -⟩ := h5.1 ho
        rw [hxs] at hys
        have : xs = ys := (List.map_injective_iff.2 (Option.some_injective _)) hys
        subst this
        exact hp (hy trivial)

/-! ### Both extensions -/

def spec4 (ip : List IpFam) : Option (Option (List AddrOrRange)) := (ip.find? fun f => !f.v6).map fun f => f.res.map fun l => l.map (IpRes.c 32)
def spec6 (ip : List IpFam) : Option (Option (List AddrOrRange)) := (ip.find? fun f => f.v6).map fun f => f.res.map fun l => l.map (IpRes.c 128)
def rng4 (ip : List IpFam) : Option (Option (List Rng)) := (ip.find? fun f => !f.v6).map fun f => f.res.map fun l => l.map (IpRes.rng 32)
def rng6 (ip : List IpFam) : Option (Option (List Rng)) := (ip.find? fun f => f.v6).map fun f => f.res.map fun l => l.map (IpRes.rng 128)

theorem addIp4 {pol : Policy} (h : Heap) (r : Resources) (parent : Option Resources) (f : IpFam) (hf : f.v6 = false) (h1 : r.ip4 = none) (h2 : r.policy = pol)
    (h3 : r.forceInherit = false) : resourcesAddIp h r parent f.c =
      ({ h with h4 := (outOf pol cmp32 decode4 (parent.map (·.ip4)) h.h4 (some (f.res.map fun l => l.map (IpRes.c 32)))).1 },
       { r with ip4 := (outOf pol cmp32 decode4 (parent.map (·.ip4)) h.h4 (some (f.res.map fun l => l.map (IpRes.c 32)))).2.1 },
       (outOf pol cmp32 decode4 (parent.map (·.ip4)) h.h4 (some (f.res.map fun l => l.map (IpRes.c 32)))).2.2) := by
  unfold resourcesAddIp IpFam.c
  rw [hf, show getAddrFamily (familyOctets false) = .ip4 from rfl]
  cases f.res with
  | none => simp only [h1, outOf, Option.map_none]
  | some l => simp only [h1, h2, h3, outOf, Option.map_some, width, Bool.false_eq_true, if_false]

theorem addIp6 {pol : Policy} (h : Heap) (r : Resources) (parent : Option Resources) (f : IpFam) (hf : f.v6 = true) (h1 : r.ip6 = none) (h2 : r.policy = pol)
    (h3 : r.forceInherit = false) : resourcesAddIp h r parent f.c =
      ({ h with h6 := (outOf pol cmp6 decode6 (parent.map (·.ip6)) h.h6 (some (f.res.map fun l => l.map (IpRes.c 128)))).1 },
       { r with ip6 := (outOf pol cmp6 decode6 (parent.map (·.ip6)) h.h6 (some (f.res.map fun l => l.map (IpRes.c 128)))).2.1 },
       (outOf pol cmp6 decode6 (parent.map (·.ip6)) h.h6 (some (f.res.map fun l => l.map (IpRes.c 128)))).2.2) := by
  unfold resourcesAddIp IpFam.c
  rw [hf, show getAddrFamily (familyOctets true) = .ip6 from rfl]
  cases f.res with
  | none => simp only [h1, outOf, Option.map_none]
  | some l => simp only [h1, h2, h3, outOf, Option.map_some, width, if_true]

/-- What the IP extension does. -/
theorem handleIp_enc {pol : Policy} (h : Heap) (r : Resources) (parent : Option Resources) (ip : List IpFam) (hne : ip ≠ [])
    (hfam : ip.map IpFam.v6 ∈ [[], [false], [true], [false, true]]) (h1 : r.ip4 = none) (h1' : r.ip6 = none) (h2 : r.policy = pol)
    (h3 : r.forceInherit = false) :
    let o4 := outOf pol cmp32 decode4 (parent.map (·.ip4)) h.h4 (spec4 ip)
    let o6 := outOf pol cmp6 decode6 (parent.map (·.ip6)) h.h6 (spec6 ip)
    (o4.2.2 = .ok ∧ o6.2.2 = .ok → handleIpExtension h r parent (some (ip.map IpFam.c)) =
      ({ h with h4 := o4.1, h6 := o6.1 }, { r with ip4 := o4.2.1, ip6 := o6.2.1 }, .ok)) ∧
    (¬ (o4.2.2 = .ok ∧ o6.2.2 = .ok) → (handleIpExtension h r parent (some (ip.map IpFam.c))).2.2 ≠ .ok) := by
  match ip, hne, hfam with
  | [f], _, hfam =>
    intro o4 o6
    simp only [List.map_cons, List.map_nil, handleIpExtension, addBlocks]
    cases hf : f.v6 with
    | false =>
      have e4 : o4 = outOf pol cmp32 decode4 (parent.map (·.ip4)) h.h4 (some (f.res.map fun l => l.map (IpRes.c 32))) := by
        simp [o4, spec4, hf]
      have e6 : o6 = (h.h6, none, .ok) := by simp [o6, spec6, hf, outOf]
      rw [addIp4 h r parent f hf h1 h2 h3, ← e4, e6]
      cases ho : o4.2.2 with
      | ok => simp [h1']
      | err => simp
      | crit => simp
    | true =>
      have e6 : o6 = outOf pol cmp6 decode6 (parent.map (·.ip6)) h.h6 (some (f.res.map fun l => l.map (IpRes.c 128))) := by
        simp [o6, spec6, hf]
      have e4 : o4 = (h.h4, none, .ok) := by simp [o4, spec4, hf, outOf]
      rw [addIp6 h r parent f hf h1' h2 h3, ← e6, e4]
      cases ho : o6.2.2 with
      | ok => simp [h1]
      | err => simp
      | crit => simp
  | [f, g], _, hfam =>
    intro o4 o6
    have hf : f.v6 = false := by simp at hfam; exact hfam.1
    have hg : g.v6 = true := by simp at hfam; exact hfam.2
    have gf : ¬ getAddrFamily f.c.family ≠ .ip4 := by simp [IpFam.c, hf, familyOctets, getAddrFamily]
    have gg : ¬ getAddrFamily g.c.family ≠ .ip6 := by simp [IpFam.c, hg, familyOctets, getAddrFamily]
    have e4 : o4 = outOf pol cmp32 decode4 (parent.map (·.ip4)) h.h4 (some (f.res.map fun l => l.map (IpRes.c 32))) := by
      simp [o4, spec4, hf]
    have e6 : o6 = outOf pol cmp6 decode6 (parent.map (·.ip6)) h.h6 (some (g.res.map fun l => l.map (IpRes.c 128))) := by
      simp [o6, spec6, hf, hg]
    simp only [List.map_cons, List.map_nil, handleIpExtension, addBlocks]
    rw [if_neg gf, if_neg gg, addIp4 h r parent f hf h1 h2 h3, ← e4]
    cases ho : o4.2.2 with
    | ok =>
      simp only
      rw [addIp6 _ _ parent g hg (by exact h1') (by exact h2) (by exact h3)]
      simp only [← e6]
      cases ho6 : o6.2.2 with
      | ok => simp
      | err => simp
      | crit => simp
    | err => simp
    | crit => simp
  | _ :: _ :: _ :: _, _, hfam => simp at hfam

/-- What the AS extension does. -/
theorem handleAs_enc {pol : Policy} (h : Heap) (r : Resources) (parent : Option Resources) (l : Option (List AsRes)) (h1 : r.asn = none) (h2 : r.policy = pol)
    (h3 : r.forceInherit = false) :
    let o := outOf pol cmp32 Res.decodeAs (parent.map (·.asn)) h.ha (some (l.map fun l => l.map AsRes.c))
    handleAsnExtension h r parent (some (asC l)) true = ({ h with ha := o.1 }, { r with asn := o.2.1 }, o.2.2) := by
  cases l with
  | none => simp [handleAsnExtension, resourcesAddAsn, asC, outOf, h1]
  | some l => simp [handleAsnExtension, resourcesAddAsn, asC, outOf, h1, h2, h3]

theorem extLoop_other (parent : Option Resources) (allow : Bool) (es : List Ext) (f g : Bool) (h : Heap) (r : Resources) :
    extLoop parent allow es f g h r = extLoop parent allow (es.filter (· ≠ .other)) f g h r := by
  induction es generalizing f g h r with
  | nil => rfl
  | cons e es ih =>
    cases e with
    | other =>
      rw [List.filter_cons_of_neg (by simp)]
      exact ih f g h r
    | badPolicy => rw [List.filter_cons_of_pos (by simp)]; rfl
    | ip critical blocks =>
      rw [List.filter_cons_of_pos (by simp)]
      simp only [extLoop]
      split_ifs
      · rfl
      · rfl
      · cases hx : handleIpExtension h r parent blocks with
        | mk h' x =>
          obtain ⟨r', o⟩ := x
          cases o with
          | ok => exact ih _ _ _ _
          | err => rfl
          | crit => rfl
    | asn critical ids =>
      rw [List.filter_cons_of_pos (by simp)]
      simp only [extLoop]
      split_ifs
      · rfl
      · rfl
      · cases hx : handleAsnExtension h r parent ids allow with
        | mk h' x =>
          obtain ⟨r', o⟩ := x
          cases o with
          | ok => exact ih _ _ _ _
          | err => rfl
          | crit => rfl

def specAs (as : Option (Option (List AsRes))) : Option (Option (List AsIdOrRange)) := as.map fun l => l.map fun l => l.map AsRes.c
def rngAs (as : Option (Option (List AsRes))) : Option (Option (List Rng)) := as.map fun l => l.map fun l => l.map AsRes.rng

theorem ext_ip {c : CertRes} (hv : c.Valid) (hs : c.Small) : (decodeIp .never (encIp c.ip)).toOption = some (c.ip.map IpFam.c) := by
  have := decodeIp_enc (l := c.ip) (fun f hf l hl => (hv.ip f hf l hl).2.1) hs.1 []
  rw [List.append_nil] at this
  rw [this]
  rfl

theorem ext_as {c : CertRes} (hs : c.Small) {l : Option (List AsRes)} (hl : c.as = some l) : (decodeAs .never (encAs l)).toOption = some (asC l) := by
  have := decodeAs_enc (l := l) (hs.2 l hl) .never []
  rw [List.append_nil] at this
  rw [this]
  rfl

/-- What all the extensions do. -/
theorem getResources_enc (pol : Policy) (h : Heap) (parent : Option Resources) (c : CertRes) (hv : c.Valid) (hs : c.Small) (exts : List Ext)
    (he : (exts.filter (· ≠ .other)).Perm c.exts) (type : CertType) (ht : type ≠ .bgpsec) :
    let o4 := outOf pol cmp32 decode4 (parent.map (·.ip4)) h.h4 (spec4 c.ip)
    let o6 := outOf pol cmp6 decode6 (parent.map (·.ip6)) h.h6 (spec6 c.ip)
    let oa := outOf pol cmp32 Res.decodeAs (parent.map (·.asn)) h.ha (specAs c.as)
    (o4.2.2 = .ok ∧ o6.2.2 = .ok ∧ oa.2.2 = .ok → certificateGetResources h (Resources.create pol false) parent exts type =
      (⟨o4.1, o6.1, oa.1⟩, ⟨o4.2.1, o6.2.1, oa.2.1, pol, false⟩, .ok)) ∧
    (¬ (o4.2.2 = .ok ∧ o6.2.2 = .ok ∧ oa.2.2 = .ok) → (certificateGetResources h (Resources.create pol false) parent exts type).2.2 ≠ .ok) := by
  intro o4 o6 oa
  unfold certificateGetResources
  have hal : decide (type ≠ .bgpsec) = true := by simpa using ht
  rw [extLoop_other, hal]
  generalize exts.filter (· ≠ .other) = es at he
  have hip := fun hne r h' a b p q => handleIp_enc (pol := pol) h' r parent c.ip hne hv.families a b p q
  unfold CertRes.exts at he
  by_cases hi : c.ip = []
  · have e4 : o4 = (h.h4, none, .ok) := by simp only [o4, spec4, hi]; rfl
    have e6 : o6 = (h.h6, none, .ok) := by simp only [o6, spec6, hi]; rfl
    cases ha : c.as with
    | none => exact absurd ha (by rcases hv.any with h | h; exact absurd hi h; exact h)
    | some l =>
      have ea : oa = outOf pol cmp32 Res.decodeAs (parent.map (·.asn)) h.ha (some (l.map fun l => l.map AsRes.c)) := by simp only [oa, specAs, ha]; rfl
      rw [if_pos hi, ha] at he
      simp only [List.nil_append, List.perm_singleton] at he
      subst he
      simp only [extLoop, ext_as hs ha, Bool.false_eq_true, if_false, Bool.not_true]
      rw [handleAs_enc (pol := pol) h _ parent l rfl rfl rfl, ← ea, e4, e6]
      cases ho : oa.2.2 with
      | ok => simp [Resources.create]
      | err => simp
      | crit => simp
  · rw [if_neg hi] at he
    have k := hip hi
    cases ha : c.as with
    | none =>
      have ea : oa = (h.ha, none, .ok) := by simp only [oa, specAs, ha]; rfl
      rw [ha] at he
      simp only [List.append_nil, List.perm_singleton] at he
      subst he
      simp only [extLoop, ext_ip hv hs, Bool.false_eq_true, if_false, Bool.not_true]
      obtain ⟨k1, k2⟩ := k (Resources.create pol false) h rfl rfl rfl rfl
      rw [ea]
      constructor
      · rintro ⟨a, b, -⟩
        rw [k1 ⟨a, b⟩]
        rfl
      · intro hn
        have := k2 (fun x => hn ⟨x.1, x.2, rfl⟩)
        cases hx : handleIpExtension h (Resources.create pol false) parent (some (c.ip.map IpFam.c)) with
        | mk h' x =>
          obtain ⟨r', o⟩ := x
          rw [hx] at this
          cases o with
          | ok => exact absurd rfl this
          | err => simp
          | crit => simp
    | some l =>
      have ea : oa = outOf pol cmp32 Res.decodeAs (parent.map (·.asn)) h.ha (some (l.map fun l => l.map AsRes.c)) := by simp only [oa, specAs, ha]; rfl
      rw [ha] at he
      simp only [List.cons_append, List.nil_append] at he
      have hcase : es = [.ip true (decodeIp .never (encIp c.ip)).toOption, .asn true (decodeAs .never (encAs l)).toOption] ∨
          es = [.asn true (decodeAs .never (encAs l)).toOption, .ip true (decodeIp .never (encIp c.ip)).toOption] := by
        generalize Ext.ip true (decodeIp .never (encIp c.ip)).toOption = u at he ⊢
        generalize Ext.asn true (decodeAs .never (encAs l)).toOption = v at he ⊢
        match es, he.length_eq, he with
        | [x, y], _, he =>
          rcases List.mem_cons.1 (he.subset (show x ∈ [x, y] by simp)) with rfl | hx
          · have := List.perm_singleton.1 ((List.perm_cons _).1 he)
            left; rw [this]
          · have hx := List.mem_singleton.1 hx
            subst hx
            have h2 : [x, y].Perm [x, u] := he.trans (List.Perm.swap _ _ _)
            have := List.perm_singleton.1 ((List.perm_cons _).1 h2)
            right; rw [this]
      rcases hcase with rfl | rfl
      · simp only [extLoop, ext_ip hv hs, ext_as hs ha, Bool.false_eq_true, if_false, Bool.not_true]
        obtain ⟨k1, k2⟩ := k (Resources.create pol false) h rfl rfl rfl rfl
        by_cases hok : o4.2.2 = .ok ∧ o6.2.2 = .ok
        · rw [k1 hok]
          simp only
          rw [handleAs_enc (pol := pol) _ _ parent l rfl rfl rfl]
          simp only [← ea]
          cases ho : oa.2.2 with
          | ok => simp [o4, o6, Resources.create, hok.1, hok.2]
          | err => simp
          | crit => simp
        · refine ⟨fun x => absurd ⟨x.1, x.2.1⟩ hok, fun _ => ?_⟩
          have := k2 hok
          cases hx : handleIpExtension h (Resources.create pol false) parent (some (c.ip.map IpFam.c)) with
          | mk h' x =>
            obtain ⟨r', o⟩ := x
            rw [hx] at this
            cases o with
            | ok => exact absurd rfl this
            | err => simp
            | crit => simp
      · simp only [extLoop, ext_ip hv hs, ext_as hs ha, Bool.false_eq_true, if_false, Bool.not_true]
        rw [handleAs_enc (pol := pol) h _ parent l rfl rfl rfl]
        simp only [← ea]
        cases ho : oa.2.2 with
        | ok =>
          simp only
          obtain ⟨k1, k2⟩ := k { Resources.create pol false with asn := oa.2.1 } { h with ha := oa.1 } rfl rfl rfl rfl
          by_cases hok : o4.2.2 = .ok ∧ o6.2.2 = .ok
          · rw [k1 hok]
            simp [hok, Resources.create, o4, o6]
          · refine ⟨fun x => absurd ⟨x.1, x.2.1⟩ hok, fun _ => ?_⟩
            have := k2 hok
            cases hx : handleIpExtension { h with ha := oa.1 } { Resources.create pol false with asn := oa.2.1 } parent (some (c.ip.map IpFam.c)) with
            | mk h' x =>
              obtain ⟨r', o⟩ := x
              rw [hx] at this
              cases o with
              | ok => exact absurd rfl this
              | err => simp
              | crit => simp
        | err => simp
        | crit => simp

end Verif.Obj
