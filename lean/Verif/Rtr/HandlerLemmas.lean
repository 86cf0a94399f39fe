/-
Lemmas about the sending loops of the query handlers.
-/
import Mathlib.Data.List.Basic
import Verif.Rtr.ModelPdu

namespace Verif.Rtr

/-- The PDU a VRP event is sent as. -/
def vrpCall (v : BitVec 8) (e : Ev Vrp) : SendCall :=
  match e.item.fam with
  | .v4 => .prefix4 v e.item e.flag
  | .v6 => .prefix6 v e.item e.flag

/-- The PDUs a router key event is sent as: none for version 0. -/
def rkCall (v : BitVec 8) (e : Ev RouterKey) : Option SendCall :=
  if v = 0 then none else some (.routerKey v e.item e.flag)

/-- Common shape of the payload callbacks. -/
def genSend (o : Nat → Int) (v : BitVec 8) (cur : BitVec 16) (s : Sock × Bool) (call : Option SendCall) :
    (Sock × Bool) × Int :=
  let c := cacheResponseMaybe o v cur s
  if c.2 ≠ 0 then c
  else match call with
    | none => (c.1, 0)
    | some call =>
      let r := sendResponse o c.1.1 call
      ((r.1, c.1.2), r.2)

theorem sendDeltaVrp_eq (o : Nat → Int) (v : BitVec 8) (cur : BitVec 16) (s : Sock × Bool) (d : Ev Vrp) :
    sendDeltaVrp o v cur s d = genSend o v cur s (some (vrpCall v d)) := by
  unfold sendDeltaVrp genSend sendPrefix vrpCall
  cases d.item.fam <;> rfl

theorem sendDeltaRk_eq (o : Nat → Int) (v : BitVec 8) (cur : BitVec 16) (s : Sock × Bool) (d : Ev RouterKey) :
    sendDeltaRk o v cur s d = genSend o v cur s (rkCall v d) := by
  unfold sendDeltaRk genSend sendRouterKey rkCall
  by_cases h : v = 0
  · simp [h]
  · simp only [if_neg h]

theorem foreachCb_map {α β σ : Type} (cb : σ → α → σ × Int) (cb' : σ → β → σ × Int) (f : α → β)
    (h : ∀ s x, cb s x = cb' s (f x)) (xs : List α) (s : σ) :
    foreachCb cb xs s = foreachCb cb' (xs.map f) s := by
  induction xs generalizing s with
  | nil => rfl
  | cons x xs ih => simp only [foreachCb, List.map_cons, h, ih]

/-- The `started` bookkeeping of one callback, and of a loop over callbacks: what was put on the wire. -/
structure Sends (o : Nat → Int) (v : BitVec 8) (cur : BitVec 16) (s : Sock × Bool)
    (calls : List SendCall) (s' : Sock × Bool) (e : Int) (did : List SendCall) : Prop where
  sent : s'.1.sent = s.1.sent ++ (if s.2 = false ∧ s'.2 = true then [.cacheResponse v cur] else []) ++ did
  pre : did <+: calls
  mono : s.2 = true → s'.2 = true
  notStarted : s'.2 = false → did = []
  all : e = 0 → did = calls
  err : e ≠ 0 → ∃ n, s.1.attempts ≤ n ∧ o n = e
  att : s.1.attempts ≤ s'.1.attempts

theorem cacheResponseMaybe_sends (o : Nat → Int) (v : BitVec 8) (cur : BitVec 16) (s : Sock × Bool) :
    Sends o v cur s [] (cacheResponseMaybe o v cur s).1 (cacheResponseMaybe o v cur s).2 [] ∧
    ((cacheResponseMaybe o v cur s).2 = 0 → (cacheResponseMaybe o v cur s).1.2 = true) := by
  obtain ⟨k, b⟩ := s
  unfold cacheResponseMaybe
  cases b with
  | true =>
    simp only [if_true]
    exact ⟨⟨by simp, List.prefix_refl _, by simp, by simp, by simp, by simp, Nat.le_refl _⟩, by simp⟩
  | false =>
    unfold sendResponse
    by_cases h : o k.attempts = 0
    · simp only [h, if_true]
      refine ⟨⟨by simp, by simp, by simp, by simp, by simp, by simp, by simp⟩, by simp⟩
    · simp only [h, if_false]
      refine ⟨⟨by simp [h], by simp, by simp, by simp [h], by simp, ?_, by simp [h]⟩, by simp [h]⟩
      intro _
      exact ⟨k.attempts, Nat.le_refl _, by simp [h]⟩

theorem Sends.trans {o : Nat → Int} {v : BitVec 8} {cur : BitVec 16} {s s1 s2 : Sock × Bool}
    {c1 c2 d1 d2 : List SendCall} {e : Int} (h1 : Sends o v cur s c1 s1 0 d1) (h2 : Sends o v cur s1 c2 s2 e d2) :
    Sends o v cur s (c1 ++ c2) s2 e (d1 ++ d2) := by
  obtain ⟨a1, a2, a3, a4, a5, a6, a7⟩ := h1
  obtain ⟨b1, b2, b3, b4, b5, b6, b7⟩ := h2
  have ha := a5 rfl
  refine ⟨?_, ?_, fun h => b3 (a3 h), ?_, ?_, ?_, Nat.le_trans a7 b7⟩
  · rw [b1, a1]
    by_cases hs : s.2 = true
    · have h1 := a3 hs
      have h2 := b3 h1
      simp [hs, h1]
    · have hs' : s.2 = false := by simpa using hs
      by_cases h1 : s1.2 = true
      · have h2 := b3 h1
        simp [hs', h1, h2]
      · have h1' : s1.2 = false := by simpa using h1
        have := a4 h1'
        subst this
        simp [hs', h1']
  · subst ha; exact (List.prefix_append_right_inj _).2 b2
  · intro h
    have h1 : s1.2 = false := by
      by_contra hh
      have := b3 (by simpa using hh)
      simp [h] at this
    rw [a4 h1, b4 h]; rfl
  · intro h; rw [ha, b5 h]
  · intro h
    obtain ⟨n, hn, ho⟩ := b6 h
    exact ⟨n, Nat.le_trans a7 hn, ho⟩

theorem genSend_sends (o : Nat → Int) (v : BitVec 8) (cur : BitVec 16) (s : Sock × Bool) (call : Option SendCall) :
    ∃ did, Sends o v cur s call.toList (genSend o v cur s call).1 (genSend o v cur s call).2 did ∧
      ((genSend o v cur s call).2 = 0 → (genSend o v cur s call).1.2 = true) := by
  obtain ⟨hc, hc2⟩ := cacheResponseMaybe_sends o v cur s
  unfold genSend
  by_cases he : (cacheResponseMaybe o v cur s).2 = 0
  · have hb := hc2 he
    rw [he] at hc
    simp only [he, ne_eq, not_true_eq_false, if_false]
    cases call with
    | none => exact ⟨[], hc, fun _ => hb⟩
    | some c =>
      generalize (cacheResponseMaybe o v cur s).1 = s1 at hc hb
      simp only [Option.toList_some]
      unfold sendResponse
      by_cases ho : o s1.1.attempts = 0
      · simp only [ho, if_true]
        refine ⟨[] ++ [c], Sends.trans (c1 := []) hc
          (⟨?_, List.prefix_refl _, ?_, ?_, fun _ => rfl, by simp, by simp⟩ : Sends o v cur s1 [c] _ 0 [c]), fun _ => hb⟩
        · simp [hb]
        · exact fun h => h
        · simp [hb]
      · simp only [ho, if_false]
        refine ⟨[] ++ [], Sends.trans (c1 := []) hc
          (⟨?_, by simp, ?_, fun _ => rfl, ?_, ?_, by simp⟩ : Sends o v cur s1 [c] (⟨s1.1.attempts + 1, s1.1.sent⟩, s1.2) _ []), ?_⟩
        · simp [hb]
        · exact fun h => h
        · exact fun h => absurd h ho
        · exact fun _ => ⟨_, Nat.le_refl _, rfl⟩
        · intro h; exact h.elim
  · rw [if_pos he]
    refine ⟨[], ⟨hc.sent, List.nil_prefix, hc.mono, fun _ => rfl, fun h => absurd h he, hc.err, hc.att⟩, ?_⟩
    exact fun h => absurd h he

theorem loop_sends (o : Nat → Int) (v : BitVec 8) (cur : BitVec 16) (xs : List (Option SendCall)) (s : Sock × Bool) :
    ∃ did, Sends o v cur s (xs.flatMap Option.toList) (foreachCb (genSend o v cur) xs s).1
      (foreachCb (genSend o v cur) xs s).2 did := by
  induction xs generalizing s with
  | nil =>
    refine ⟨[], by simp [foreachCb], List.prefix_refl _, fun h => h, fun _ => rfl, fun _ => rfl, ?_, Nat.le_refl _⟩
    intro h; simp [foreachCb] at h
  | cons x xs ih =>
    obtain ⟨d1, h1, _⟩ := genSend_sends o v cur s x
    simp only [foreachCb, List.flatMap_cons]
    by_cases he : (genSend o v cur s x).2 = 0
    · rw [he] at h1
      rw [if_neg (by simp [he])]
      obtain ⟨d2, h2⟩ := ih (genSend o v cur s x).1
      exact ⟨d1 ++ d2, h1.trans h2⟩
    · rw [if_pos he]
      exact ⟨d1, h1.sent, h1.pre.trans (List.prefix_append _ _), h1.mono, h1.notStarted,
        fun h => absurd h he, h1.err, h1.att⟩

theorem flatMap_some_toList {α β : Type} (f : α → β) (l : List α) :
    (l.map (fun x => some (f x))).flatMap Option.toList = l.map f := by
  induction l with
  | nil => rfl
  | cons x xs ih => simp [ih]

end Verif.Rtr
