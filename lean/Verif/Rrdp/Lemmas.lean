import Verif.Rrdp.Spec
import Verif.Rrdp.SortProps
import Verif.Cache.ModuleProps
/-
Lemmas about the RRDP model.
-/
namespace Verif.Rrdp
open Verif.Res (Byte)
open Verif.Uri
open Verif.Cache (Url Cfg Op Cache)

/-! ### Parsing -/

theorem parseHash_ok {n : XNode} {hr : HashReq} {h : Option (List Byte)} (e : parseHash n hr = (.ok, h)) :
    (∀ x, h = some x → HashAttr n x) ∧ (hr = .ignore → h = none) ∧ (hr = .mandatory → h.isSome) ∧
    (hr = .optional → h = none → n.attr "hash" = none) := by
  unfold parseHash at e
  split at e
  · cases e; exact ⟨(fun x hx => by cases hx), fun _ => rfl, (fun h => by cases h), (fun h => by cases h)⟩
  · rename_i hr hne
    split at e
    · rename_i ha
      simp only [Prod.mk.injEq] at e
      obtain ⟨e1, rfl⟩ := e
      refine ⟨(fun x hx => by cases hx), fun _ => rfl, fun hm => ?_, fun _ _ => ha⟩
      rw [if_pos hm] at e1; cases e1
    · rename_i s hs
      split at e
      · rename_i h' hh
        cases e
        exact ⟨(fun x hx => by cases hx; exact ⟨s, hs, hh⟩), (fun h => absurd h hne), fun _ => rfl, (fun _ h => by cases h)⟩
      · cases e
      · cases e

theorem parseFileMetadata_ok {env : Env} {tal : List Byte} {n : XNode} {notif : Option Uri} {hr : HashReq} {m : Option Meta}
    (e : parseFileMetadata env tal n notif hr = (.ok, m)) :
    ∃ m' s, m = some m' ∧ n.attr "uri" = some s ∧
      uriCreate env.repo (some tal) (if notif.isSome then .caged else .https) notif s = .ok m'.uri ∧
      parseHash n hr = (.ok, m'.hash) := by
  unfold parseFileMetadata at e
  split at e
  · cases e
  · rename_i s hs
    split at e
    · cases e
    · cases e
    · rename_i u hu
      split at e
      · rename_i h hh
        cases e
        exact ⟨⟨u, h⟩, s, rfl, hs, hu, hh⟩
      · rename_i r x hr' hne
        simp only [Prod.mk.injEq] at e
        exact absurd e.1 hr'

theorem parseFileMetadata_no {env : Env} {tal : List Byte} {n : XNode} {notif : Option Uri} {hr : HashReq} :
    parseFileMetadata env tal n notif hr ≠ (.ok, none) := by
  intro e
  obtain ⟨m', s, h, -⟩ := parseFileMetadata_ok e
  cases h

theorem validateHash_ok {env : Env} {d : Disk} {m : Meta} (h : validateHash env d m = .ok) :
    Has env.sha d m.uri.loc (m.hash.getD []) := by
  unfold validateHash at h
  split at h
  · cases h
  · rename_i c hc
    split at h
    · rename_i e; exact ⟨c, hc, e.symm⟩
    · cases h

/-- What a successful `publish` does. -/
theorem handlePublish_ok {env : Env} {tal : List Byte} {d d' : Disk} {n : XNode} {rest : List XNode} {notif : Uri} {hr : HashReq}
    {more : Bool} (h : handlePublish env tal d n rest notif hr = (.ok, more, d')) :
    ∃ p e c t rest' v, rest = t :: rest' ∧ more = true ∧ PathAttr env tal notif n p ∧ t.value = some v ∧ env.b64 v = some c ∧
      parseHash n hr = (.ok, e) ∧ (∀ x, e = some x → Has env.sha d p x) ∧ d' = d.set p (some c) := by
  unfold handlePublish at h
  split at h
  · rename_i more' m c hp
    unfold parsePublish at hp
    split at hp
    · rename_i m' hm
      obtain ⟨m2, s, e1, e2, e3, e4⟩ := parseFileMetadata_ok hm
      cases e1
      split at hp
      · cases hp
      · rename_i t rest'
        split at hp
        · cases hp
        · rename_i v hv
          split at hp
          · cases hp
          · rename_i c' hc
            have key : m = m' ∧ c = c' ∧ more' = true ∧ (∀ x, m'.hash = some x → Has env.sha d m'.uri.loc x) := by
              split at hp
              · rename_i hs
                split at hp
                · rename_i hv
                  simp only [Prod.mk.injEq, Option.some.injEq, true_and] at hp
                  obtain ⟨rfl, rfl, rfl⟩ := hp
                  refine ⟨rfl, rfl, rfl, fun x hx => ?_⟩
                  have := validateHash_ok hv
                  rw [hx] at this
                  exact this
                · simp at hp
              · rename_i hs
                simp only [Prod.mk.injEq, Option.some.injEq, true_and] at hp
                obtain ⟨rfl, rfl, rfl⟩ := hp
                refine ⟨rfl, rfl, rfl, fun x hx => ?_⟩
                rw [hx] at hs
                simp at hs
            obtain ⟨rfl, rfl, rfl, hh⟩ := key
            unfold writeFile at h
            split at h
            · simp at h
            · simp only [Prod.mk.injEq, true_and] at h
              exact ⟨m.uri.loc, m.hash, c, t, rest', v, rfl, h.1.symm, ⟨s, m.uri, e2, e3, rfl⟩, hv, hc, e4, hh, h.2.symm⟩
    · simp at hp
    · simp at hp
  · simp at h
  · rename_i snd hno1 hno2 _
    simp only [Prod.mk.injEq] at h
    cases snd with
    | none => exact absurd rfl (hno2 h.1)
    | some x => exact absurd rfl (hno1 x.1 x.2 h.1)

/-- What a successful `withdraw` does. -/
theorem handleWithdraw_ok {env : Env} {tal : List Byte} {d d' : Disk} {n : XNode} {notif : Uri}
    (h : handleWithdraw env tal d n notif = (.ok, d')) :
    ∃ p x, PathAttr env tal notif n p ∧ HashAttr n x ∧ Has env.sha d p x ∧ d' = d.set p none := by
  unfold handleWithdraw at h
  split at h
  · rename_i m hp
    unfold parseWithdraw at hp
    split at hp
    · rename_i m' hm
      obtain ⟨m2, s, e1, e2, e3, e4⟩ := parseFileMetadata_ok hm
      cases e1
      simp only [Prod.mk.injEq, Option.some.injEq] at hp
      obtain ⟨hv, rfl⟩ := hp
      obtain ⟨k1, -, k3, -⟩ := parseHash_ok e4
      have := k3 rfl
      rw [Option.isSome_iff_exists] at this
      obtain ⟨x, hx⟩ := this
      have hv := validateHash_ok hv
      rw [hx] at hv
      unfold deleteFile at h
      split at h
      · simp at h
      · split at h
        · simp at h
        · simp only [Prod.mk.injEq, true_and] at h
          exact ⟨_, x, ⟨s, m'.uri, e2, e3, rfl⟩, k1 x hx, hv, h.symm⟩
    · simp at hp
    · simp at hp
  · simp at h
  · rename_i snd hno1 hno2 _
    simp only [Prod.mk.injEq] at h
    cases snd with
    | none => exact absurd rfl (hno2 h.1)
    | some x => exact absurd rfl (hno1 x h.1)

theorem parseSession_ok {n : XNode} {s : Option Session} (h : parseSession n = (.ok, s)) :
    ∃ a, s = some a ∧ SessionAttrs n a := by
  unfold parseSession at h
  split at h
  · simp at h
  · rename_i hns
    split at h
    · split at h
      · simp at h
      · rename_i id hid
        split at h
        · simp at h
        · rename_i x hx
          simp only [Prod.mk.injEq, true_and] at h
          exact ⟨_, h.symm, Classical.not_not.1 hns, hid, hx⟩
    · rename_i hno
      simp only [Prod.mk.injEq] at h
      exact absurd h.1 hno

theorem validateSession_ok {n : XNode} {s : Option Session} (h : validateSession n s = .ok) :
    ∃ a, s = some a ∧ SessionAttrs n a := by
  unfold validateSession at h
  split at h
  · rename_i a ha
    obtain ⟨a', e, hs⟩ := parseSession_ok ha
    cases e
    split at h
    · cases h
    · rename_i e
      split at h
      · cases h
      · rename_i h1
        split at h
        · cases h
        · rename_i h2
          refine ⟨_, rfl, ?_⟩
          have : e = a := by
            cases e; cases a
            simp only [ne_eq, Classical.not_not] at h1 h2
            subst h1; subst h2; rfl
          rw [this]; exact hs
  · cases h
  · rename_i snd hno1 hno2 _
    cases snd with
    | none => exact absurd rfl (hno2 h)
    | some x => exact absurd rfl (hno1 x h)

/-! ### Documents -/

/-- A snapshot or delta that was read to its end was followed to the letter. -/
theorem readLoop_follows (env : Env) (tal : List Byte) (notif : Uri) (isDelta : Bool) (s : Session) (endOk : Bool) :
    ∀ (k : Nat) (nodes : List XNode) (d d' : Disk), nodes.length ≤ k →
    readLoop (if isDelta then xmlReadDelta env tal notif (some s) else xmlReadSnapshot env tal notif (some s)) endOk nodes d
      = (.ok, d') →
    ∃ cs, Lists env tal notif isDelta s nodes cs ∧ Applies env.sha d cs d' := by
  intro k
  induction k with
  | zero =>
    intro nodes d d' hk h
    have : nodes = [] := List.length_eq_zero_iff.1 (by omega)
    subst this
    unfold readLoop at h
    simp only [Prod.mk.injEq] at h
    obtain ⟨-, rfl⟩ := h
    exact ⟨[], .nil, .nil _⟩
  | succ k ih =>
    intro nodes d d' hk h
    match nodes with
    | [] =>
      unfold readLoop at h
      simp only [Prod.mk.injEq] at h
      obtain ⟨-, rfl⟩ := h
      exact ⟨[], .nil, .nil _⟩
    | n :: rest =>
      simp only [List.length_cons] at hk
      unfold readLoop at h
      split at h
      · simp at h
      · split at h
        · rename_i more d1 hcb
          cases isDelta with
          | false =>
            simp only [Bool.false_eq_true, if_false] at hcb ih h
            unfold xmlReadSnapshot at hcb
            split at hcb
            · rename_i hty
              split at hcb
              · rename_i hnm
                obtain ⟨p, e, c, t, rest', v, rfl, rfl, hp, hv, hc, he, hh, rfl⟩ := handlePublish_ok hcb
                simp only [if_true, List.tail_cons] at h
                obtain ⟨cs, hl, ha⟩ := ih rest' _ _ (by simp at hk; omega) h
                obtain ⟨-, k2, -, -⟩ := parseHash_ok he
                have he0 := k2 rfl
                exact ⟨_, .publish n t rest' p v c e cs hty hnm hp hv hc (by simpa using he0) hl, .publish _ _ _ _ _ _ hh ha⟩
              · split at hcb
                · rename_i hnm
                  simp only [Prod.mk.injEq] at hcb
                  obtain ⟨hs, rfl, rfl⟩ := hcb
                  obtain ⟨a, e, hs⟩ := validateSession_ok hs
                  cases e
                  simp only [Bool.false_eq_true, if_false] at h
                  obtain ⟨cs, hl, ha⟩ := ih rest _ _ (by omega) h
                  exact ⟨cs, .root n rest cs hty (by simpa using hnm) hs hl, ha⟩
                · simp at hcb
            · rename_i hty
              simp only [Prod.mk.injEq, true_and] at hcb
              obtain ⟨rfl, rfl⟩ := hcb
              simp only [Bool.false_eq_true, if_false] at h
              obtain ⟨cs, hl, ha⟩ := ih rest _ _ (by omega) h
              exact ⟨cs, .other n rest cs hty hl, ha⟩
          | true =>
            simp only [if_true] at hcb ih h
            unfold xmlReadDelta at hcb
            split at hcb
            · rename_i hty
              split at hcb
              · rename_i hnm
                obtain ⟨p, e, c, t, rest', v, rfl, rfl, hp, hv, hc, he, hh, rfl⟩ := handlePublish_ok hcb
                simp only [if_true, List.tail_cons] at h
                obtain ⟨cs, hl, ha⟩ := ih rest' _ _ (by simp at hk; omega) h
                obtain ⟨k1, -, -, k4⟩ := parseHash_ok he
                exact ⟨_, .publish n t rest' p v c e cs hty hnm hp hv hc (by simpa using ⟨k1, k4 rfl⟩) hl,
                  .publish _ _ _ _ _ _ hh ha⟩
              · split at hcb
                · rename_i hnm
                  simp only [Prod.mk.injEq] at hcb
                  obtain ⟨hw, rfl, rfl⟩ := hcb
                  obtain ⟨p, x, hp, hx, hh, e⟩ := handleWithdraw_ok (d' := (handleWithdraw env tal d n notif).2) (Prod.ext hw rfl)
                  rw [e] at h
                  simp only [Bool.false_eq_true, if_false] at h
                  obtain ⟨cs, hl, ha⟩ := ih rest _ _ (by omega) h
                  exact ⟨_, .withdraw n rest p x cs rfl hty hnm hp hx hl, .withdraw _ _ _ _ _ hh ha⟩
                · split at hcb
                  · rename_i hnm
                    simp only [Prod.mk.injEq] at hcb
                    obtain ⟨hs, rfl, rfl⟩ := hcb
                    obtain ⟨a, e, hs⟩ := validateSession_ok hs
                    cases e
                    simp only [Bool.false_eq_true, if_false] at h
                    obtain ⟨cs, hl, ha⟩ := ih rest _ _ (by omega) h
                    exact ⟨cs, .root n rest cs hty (by simpa using hnm) hs hl, ha⟩
                  · simp at hcb
            · rename_i hty
              simp only [Prod.mk.injEq, true_and] at hcb
              obtain ⟨rfl, rfl⟩ := hcb
              simp only [Bool.false_eq_true, if_false] at h
              obtain ⟨cs, hl, ha⟩ := ih rest _ _ (by omega) h
              exact ⟨cs, .other n rest cs hty hl, ha⟩
        · rename_i hno _
          simp only [Prod.mk.injEq] at h
          exact absurd h.1 hno

end Verif.Rrdp
