import Verif.Sys.ResRel
/-
Pointers and values: extensions, certificates, ROAs.
-/
namespace Verif.Sys
open Verif.Tree Verif.Res

theorem addBlocks_one (parent : Option Resources) (b : IpBlock) (h : Heap) (r : Resources) :
    addBlocks parent [b] h r = resourcesAddIp h r parent b := by
  unfold addBlocks
  cases e : resourcesAddIp h r parent b with
  | mk h1 x =>
    obtain ⟨r1, o⟩ := x
    cases o <;> rfl

theorem Loop.v4 {h0 : Heap} {policy : Policy} {force g : Bool} {h : Heap} {r : Resources} {v : Vals} (l : Loop h0 policy force false g h r v) :
    v.ip4 = [] := l.rel.k4.emp.1 (l.ip rfl).1
theorem Loop.v6 {h0 : Heap} {policy : Policy} {force g : Bool} {h : Heap} {r : Resources} {v : Vals} (l : Loop h0 policy force false g h r v) :
    v.ip6 = [] := l.rel.k6.emp.1 (l.ip rfl).2

theorem handleIp_out {h0 h : Heap} {policy : Policy} {force g : Bool} {r : Resources} {v : Vals} {parent : Option Resources}
    {issuer : Option Vals} (hi : IRel h0 parent issuer) (l : Loop h0 policy force false g h r v) (blocks : Option (List IpBlock)) :
    (∀ h1 r1, handleIpExtension h r parent blocks = (h1, r1, .ok) → ∃ bs v1, blocks = some bs ∧ GrantsIp issuer policy force v1 bs ∧
      v1.asn = v.asn ∧ Loop h0 policy force true g h1 r1 v1) ∧
    (∀ bs v1, blocks = some bs → GrantsIp issuer policy force v1 bs → (handleIpExtension h r parent blocks).2.2 = .ok) := by
  cases blocks with
  | none => exact ⟨(by rintro h1 r1 ⟨⟩), (by rintro bs v1 ⟨⟩)⟩
  | some bs =>
    match bs with
    | [] =>
      refine ⟨(by rintro h1 r1 ⟨⟩), ?_⟩
      rintro bs v1 e hg
      cases e
      rcases hg with ⟨c, w, e, _⟩ | ⟨c, w, e, _⟩ | ⟨c, d, w, w', e, _⟩ <;> cases e
    | [b] =>
      simp only [handleIpExtension, addBlocks_one]
      have k4 := fun c => addIp4_out hi l.grow l.good l.rel l.pol l.frc (l.ip rfl).1 c
      have k6 := fun c => addIp6_out hi l.grow l.good l.rel l.pol l.frc (l.ip rfl).2 c
      obtain ⟨fam, c⟩ := b
      constructor
      · intro h1 r1 e
        cases hf : getAddrFamily fam with
        | bad => simp only [resourcesAddIp, hf] at e; cases e
        | ip4 =>
          obtain rfl := family4 hf
          obtain ⟨w, own, a1, a2, a3, a4, a5, a6, a7, a8, a9⟩ := (k4 c).1 h1 r1 e
          exact ⟨_, { v with ip4 := own }, rfl, .inl ⟨c, w, rfl, a1, a2, l.v6⟩, rfl, a3, a4, a5, a6, a7, (fun h => by cases h),
            (fun h => a9.trans (l.as h))⟩
        | ip6 =>
          obtain rfl := family6 hf
          obtain ⟨w, own, a1, a2, a3, a4, a5, a6, a7, a8, a9⟩ := (k6 c).1 h1 r1 e
          exact ⟨_, { v with ip6 := own }, rfl, .inr (.inl ⟨c, w, rfl, a1, a2, l.v4⟩), rfl, a3, a4, a5, a6, a7, (fun h => by cases h),
            (fun h => a9.trans (l.as h))⟩
      · rintro bs v1 e hg
        cases e
        rcases hg with ⟨c', w, e, a1, a2, _⟩ | ⟨c', w, e, a1, a2, _⟩ | ⟨c', d, w, w', e, _⟩
        · cases e; exact (k4 c).2.1 w _ a1 a2
        · cases e; exact (k6 c).2.1 w _ a1 a2
        · cases e
    | [b, b'] =>
      obtain ⟨fam, c⟩ := b
      obtain ⟨fam', d⟩ := b'
      have k4 := addIp4_out hi l.grow l.good l.rel l.pol l.frc (l.ip rfl).1 c
      simp only [handleIpExtension]
      constructor
      · intro h1 r1 e
        split at e
        · cases e
        · rename_i f1
          split at e
          · cases e
          · rename_i f2
            obtain rfl := family4 (Classical.not_not.1 f1)
            obtain rfl := family6 (Classical.not_not.1 f2)
            unfold addBlocks at e
            cases e1 : resourcesAddIp h r parent ⟨[0, 1], c⟩ with
            | mk h2 x =>
              obtain ⟨r2, o⟩ := x
              rw [e1] at e
              cases o with
              | err => cases e
              | crit => cases e
              | ok =>
                simp only [addBlocks_one] at e
                obtain ⟨w, own, a1, a2, a3, a4, a5, a6, a7, a8, a9⟩ := k4.1 h2 r2 e1
                have k6 := addIp6_out hi a4 a3 a5 a6 a7 (a8.trans (l.ip rfl).2) d
                obtain ⟨w', own', b1, b2, b3, b4, b5, b6, b7, b8, b9⟩ := k6.1 h1 r1 e
                exact ⟨_, { v with ip4 := own, ip6 := own' }, rfl, .inr (.inr ⟨c, d, w, w', rfl, a1, b1, a2, b2⟩), rfl, b3, b4, b5, b6, b7,
                  (fun h => by cases h), (fun h => b9.trans (a9.trans (l.as h)))⟩
      · rintro bs v1 e hg
        cases e
        rcases hg with ⟨c', w, e, _⟩ | ⟨c', w, e, _⟩ | ⟨c', d', w, w', e, a1, b1, a2, b2⟩
        · cases e
        · cases e
        · cases e
          rw [if_neg (by decide), if_neg (by decide)]
          have o1 := k4.2.1 w _ a1 a2
          cases e1 : resourcesAddIp h r parent ⟨[0, 1], c⟩ with
          | mk h2 x =>
            obtain ⟨r2, o⟩ := x
            rw [e1] at o1
            cases (show o = .ok from o1)
            unfold addBlocks
            rw [e1]
            simp only [addBlocks_one]
            obtain ⟨w2, own, _, _, a3, a4, a5, a6, a7, a8, a9⟩ := k4.1 h2 r2 e1
            have k6 := addIp6_out hi a4 a3 a5 a6 a7 (a8.trans (l.ip rfl).2) d
            exact k6.2.1 w' _ b1 b2
    | _ :: _ :: _ :: _ =>
      refine ⟨(by rintro h1 r1 ⟨⟩), ?_⟩
      rintro bs v1 e hg
      cases e
      rcases hg with ⟨c, w, e, _⟩ | ⟨c, w, e, _⟩ | ⟨c, d, w, w', e, _⟩ <;> cases e

theorem handleAs_out {h0 h : Heap} {policy : Policy} {force f : Bool} {r : Resources} {v : Vals} {parent : Option Resources}
    {issuer : Option Vals} (hi : IRel h0 parent issuer) (l : Loop h0 policy force f false h r v) (ids : Option AsIds) (allow : Bool) :
    (∀ h1 r1, handleAsnExtension h r parent ids allow = (h1, r1, .ok) → ∃ i v1, ids = some i ∧ GrantsAs issuer policy force allow v1 i ∧
      v1.ip4 = v.ip4 ∧ v1.ip6 = v.ip6 ∧ Loop h0 policy force f true h1 r1 v1) ∧
    (∀ i v1, ids = some i → GrantsAs issuer policy force allow v1 i → (handleAsnExtension h r parent ids allow).2.2 = .ok) := by
  have hp := (hi.mono l.grow).proj.2.2
  have ha := l.as rfl
  have good := l.good
  have g' : ∀ {x : Sets R32}, h.ha <+: x → Grow h0 { h with ha := x } := fun p =>
    l.grow.trans ⟨List.prefix_refl _, List.prefix_refl _, p⟩
  cases ids with
  | none => exact ⟨(by rintro h1 r1 ⟨⟩), (by rintro bs v1 ⟨⟩)⟩
  | some ids =>
    obtain ⟨asnum, rdi⟩ := ids
    simp only [handleAsnExtension, resourcesAddAsn, Option.some.injEq]
    cases asnum with
    | none =>
      refine ⟨(by rintro h1 r1 ⟨⟩), ?_⟩
      rintro i v1 rfl ⟨_, c, w, e, _⟩
      cases e
    | some c =>
      simp only
      cases rdi with
      | true =>
        refine ⟨(by rintro h1 r1 ⟨⟩), ?_⟩
        rintro i v1 rfl ⟨e, _⟩
        cases e
      | false =>
        simp only [Bool.false_eq_true, if_false]
        cases c with
        | nothing =>
          refine ⟨(by rintro h1 r1 ⟨⟩), ?_⟩
          rintro i v1 rfl ⟨_, c, w, e, e1, _⟩
          cases e; cases e1
        | inherit =>
          cases allow with
          | false =>
            refine ⟨(by rintro h1 r1 ⟨⟩), ?_⟩
            rintro i v1 rfl ⟨_, c, w, e, e1, _⟩
            cases e; cases e1
          | true =>
            have k := inheritSet_out good.ga hp policy force
            simp only [ha, Bool.not_true, Bool.false_eq_true, if_false]
            constructor
            · intro h1 r1 e
              simp only [Prod.mk.injEq] at e
              obtain ⟨e1, e2, e3⟩ := e
              obtain ⟨own, a, b⟩ := k.sound e3
              subst e1 e2
              exact ⟨_, { v with asn := own }, rfl, ⟨rfl, _, _, rfl, rfl, a⟩, rfl, rfl,
                ⟨good.g4, good.g6, k.good⟩, g' k.pre, ⟨l.rel.k4, l.rel.k6, b⟩, l.pol, l.frc, l.ip, (fun h => by cases h)⟩
            · rintro i v1 rfl ⟨_, c, w, e, e1, a⟩
              cases e; cases e1
              exact k.complete _ a
        | list es =>
          have k := addList_out law32 decodeAs_good good.ga hp policy force es
          rw [← l.pol, ← l.frc] at k ⊢
          simp only [ha]
          constructor
          · intro h1 r1 e
            simp only [Prod.mk.injEq] at e
            obtain ⟨e1, e2, e3⟩ := e
            obtain ⟨own, a, b⟩ := k.sound e3
            subst e1 e2
            exact ⟨_, { v with asn := own }, rfl, ⟨rfl, _, _, rfl, rfl, a⟩, rfl, rfl,
              ⟨good.g4, good.g6, k.good⟩, g' k.pre, ⟨l.rel.k4, l.rel.k6, b⟩, rfl, rfl, l.ip, (fun h => by cases h)⟩
          · rintro i v1 rfl ⟨_, c, w, e, e1, a⟩
            cases e; cases e1
            exact k.complete _ a

/-- What the rest of the extensions makes of `v`. -/
def Rest (issuer : Option Vals) (policy : Policy) (force allow f g : Bool) (v : Vals) (es : List Ext) (v' : Vals) : Prop :=
  Ext.badPolicy ∉ es ∧ (f = true ∨ g = true ∨ ips es ≠ [] ∨ ases es ≠ []) ∧
  ((ips es = [] ∧ v'.ip4 = v.ip4 ∧ v'.ip6 = v.ip6) ∨
    f = false ∧ ∃ blocks, ips es = [(true, some blocks)] ∧ GrantsIp issuer policy force v' blocks) ∧
  ((ases es = [] ∧ v'.asn = v.asn) ∨ g = false ∧ ∃ ids, ases es = [(true, some ids)] ∧ GrantsAs issuer policy force allow v' ids)

theorem extLoop_out {h0 : Heap} {policy : Policy} {force allow : Bool} {parent : Option Resources} {issuer : Option Vals}
    (hi : IRel h0 parent issuer) (es : List Ext) : ∀ {f g : Bool} {h : Heap} {r : Resources} {v : Vals}, Loop h0 policy force f g h r v →
    (∀ h' r', extLoop parent allow es f g h r = (h', r', .ok) → ∃ v', Rest issuer policy force allow f g v es v' ∧ RRel h' r' v') ∧
    (∀ v', Rest issuer policy force allow f g v es v' → (extLoop parent allow es f g h r).2.2 = .ok) := by
  induction es with
  | nil =>
    intro f g h r v l
    unfold extLoop
    constructor
    · intro h' r' e
      split at e
      · cases e
      · rename_i hfg
        cases e
        refine ⟨v, ⟨by simp, ?_, .inl ⟨rfl, rfl, rfl⟩, .inl ⟨rfl, rfl⟩⟩, l.rel⟩
        cases f <;> cases g <;> simp_all
    · rintro v' ⟨_, h2, _⟩
      cases f <;> cases g <;> simp_all [ips, ases]
  | cons e es ih =>
    intro f g h r v l
    unfold extLoop
    cases e with
    | badPolicy => exact ⟨(by rintro h' r' ⟨⟩), fun v' hr => absurd List.mem_cons_self hr.1⟩
    | other =>
      obtain ⟨a, b⟩ := ih l
      refine ⟨fun h' r' e => ?_, fun v' hr => b v' ?_⟩
      · obtain ⟨v', c, d⟩ := a h' r' e
        exact ⟨v', ⟨by simp [c.1], c.2.1, c.2.2.1, c.2.2.2⟩, d⟩
      · exact ⟨fun hm => hr.1 (List.mem_cons_of_mem _ hm), hr.2.1, hr.2.2.1, hr.2.2.2⟩
    | ip critical blocks =>
      have hips : ips (.ip critical blocks :: es) = (critical, blocks) :: ips es := rfl
      have hases : ases (.ip critical blocks :: es) = ases es := rfl
      simp only
      cases f with
      | true =>
        refine ⟨(by rintro h' r' ⟨⟩), ?_⟩
        rintro v' ⟨_, _, h3, _⟩
        rw [hips] at h3
        rcases h3 with ⟨h3, _⟩ | ⟨h3, _⟩ <;> cases h3
      | false =>
        cases critical with
        | false =>
          refine ⟨(by rintro h' r' ⟨⟩), ?_⟩
          rintro v' ⟨_, _, h3, _⟩
          rw [hips] at h3
          rcases h3 with ⟨h3, _⟩ | ⟨_, bs, h3, _⟩
          · cases h3
          · simp at h3
        | true =>
          simp only [Bool.false_eq_true, if_false, Bool.not_true]
          obtain ⟨a, b⟩ := handleIp_out hi l blocks
          constructor
          · intro h' r' e
            cases e1 : handleIpExtension h r parent blocks with
            | mk h1 x =>
              obtain ⟨r1, o⟩ := x
              rw [e1] at e
              cases o with
              | err => cases e
              | crit => cases e
              | ok =>
                simp only at e
                obtain ⟨bs, v1, c1, c2, c3, c4⟩ := a h1 r1 e1
                obtain ⟨v', ⟨d1, d2, d3, d4⟩, d5⟩ := (ih c4).1 h' r' e
                rcases d3 with ⟨d3, d6, d7⟩ | ⟨d3, _⟩
                · refine ⟨v', ⟨by simp [d1], .inr (.inr (.inl (by rw [hips]; simp))), .inr ⟨rfl, bs, by rw [hips, d3, c1], c2.congr d6 d7⟩, ?_⟩, d5⟩
                  rw [hases]
                  rcases d4 with ⟨d4, d8⟩ | d4
                  · exact .inl ⟨d4, d8.trans c3⟩
                  · exact .inr d4
                · cases d3
          · rintro v' ⟨h1, _, h3, h4⟩
            rw [hips] at h3
            rw [hases] at h4
            rcases h3 with ⟨h3, _⟩ | ⟨_, bs, h3, h5⟩
            · cases h3
            · simp only [List.cons.injEq, Prod.mk.injEq, true_and] at h3
              obtain ⟨h3, h6⟩ := h3
              have o1 := b bs v' h3 h5
              cases e1 : handleIpExtension h r parent blocks with
              | mk h1' x =>
                obtain ⟨r1, o⟩ := x
                rw [e1] at o1
                cases (show o = .ok from o1)
                simp only
                obtain ⟨bs', v1, c1, c2, c3, c4⟩ := a h1' r1 e1
                rw [h3] at c1
                cases c1
                obtain ⟨u1, u2⟩ := c2.unique h5
                refine (ih c4).2 v' ⟨fun hm => h1 (List.mem_cons_of_mem _ hm), .inl rfl, .inl ⟨h6, u1, u2⟩, ?_⟩
                rcases h4 with ⟨h4, h7⟩ | h4
                · exact .inl ⟨h4, h7.trans c3.symm⟩
                · exact .inr h4
    | asn critical ids =>
      have hips : ips (.asn critical ids :: es) = ips es := rfl
      have hases : ases (.asn critical ids :: es) = (critical, ids) :: ases es := rfl
      simp only
      cases g with
      | true =>
        refine ⟨(by rintro h' r' ⟨⟩), ?_⟩
        rintro v' ⟨_, _, _, h3⟩
        rw [hases] at h3
        rcases h3 with ⟨h3, _⟩ | ⟨h3, _⟩ <;> cases h3
      | false =>
        cases critical with
        | false =>
          refine ⟨(by rintro h' r' ⟨⟩), ?_⟩
          rintro v' ⟨_, _, _, h3⟩
          rw [hases] at h3
          rcases h3 with ⟨h3, _⟩ | ⟨_, bs, h3, _⟩
          · cases h3
          · simp at h3
        | true =>
          simp only [Bool.false_eq_true, if_false, Bool.not_true]
          obtain ⟨a, b⟩ := handleAs_out hi l ids allow
          constructor
          · intro h' r' e
            cases e1 : handleAsnExtension h r parent ids allow with
            | mk h1 x =>
              obtain ⟨r1, o⟩ := x
              rw [e1] at e
              cases o with
              | err => cases e
              | crit => cases e
              | ok =>
                simp only at e
                obtain ⟨i, v1, c1, c2, c3, c3', c4⟩ := a h1 r1 e1
                obtain ⟨v', ⟨d1, d2, d3, d4⟩, d5⟩ := (ih c4).1 h' r' e
                rcases d4 with ⟨d4, d6⟩ | ⟨d4, _⟩
                · refine ⟨v', ⟨by simp [d1], .inr (.inr (.inr (by rw [hases]; simp))), ?_, .inr ⟨rfl, i, by rw [hases, d4, c1], c2.congr d6⟩⟩, d5⟩
                  rw [hips]
                  rcases d3 with ⟨d3, d8, d9⟩ | d3
                  · exact .inl ⟨d3, d8.trans c3, d9.trans c3'⟩
                  · exact .inr d3
                · cases d4
          · rintro v' ⟨h1, _, h4, h3⟩
            rw [hips] at h4
            rw [hases] at h3
            rcases h3 with ⟨h3, _⟩ | ⟨_, i, h3, h5⟩
            · cases h3
            · simp only [List.cons.injEq, Prod.mk.injEq, true_and] at h3
              obtain ⟨h3, h6⟩ := h3
              have o1 := b i v' h3 h5
              cases e1 : handleAsnExtension h r parent ids allow with
              | mk h1' x =>
                obtain ⟨r1, o⟩ := x
                rw [e1] at o1
                cases (show o = .ok from o1)
                simp only
                obtain ⟨i', v1, c1, c2, c3, c3', c4⟩ := a h1' r1 e1
                rw [h3] at c1
                cases c1
                have u1 := c2.unique h5
                refine (ih c4).2 v' ⟨fun hm => h1 (List.mem_cons_of_mem _ hm), .inr (.inl rfl), ?_, .inl ⟨h6, u1⟩⟩
                rcases h4 with ⟨h4, h7, h8⟩ | h4
                · exact .inl ⟨h4, h7.trans c3.symm, h8.trans c3'.symm⟩
                · exact .inr h4

end Verif.Sys
