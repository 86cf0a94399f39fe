import Verif.Rrdp.Lemmas2
/-
Lemmas about notifications.
-/
namespace Verif.Rrdp
open Verif.Res (Byte)
open Verif.Uri

/-- The callback accepts these nodes one after the other. -/
inductive Steps {S : Type} (cb : S → XNode → List XNode → Out × Bool × S) : List XNode → S → S → Prop
  | nil (s : S) : Steps cb [] s s
  | cons (n : XNode) (ns : List XNode) (s s1 s2 : S) (rest : List XNode) (h : cb s n rest = (.ok, false, s1)) (r : Steps cb ns s1 s2) :
      Steps cb (n :: ns) s s2

theorem readLoop_steps {S : Type} {cb : S → XNode → List XNode → Out × Bool × S} (hcb : ∀ s n r, (cb s n r).2.1 = false)
    (e : Bool) (b : List XNode) : ∀ (a : List XNode) (s s' : S), readLoop cb e (a ++ b) s = (.ok, s') →
    ∃ s1, Steps cb a s s1 ∧ readLoop cb e b s1 = (.ok, s') := by
  intro a
  induction a with
  | nil => intro s s' h; exact ⟨s, .nil s, h⟩
  | cons n a ih =>
    intro s s' h
    rw [List.cons_append, readLoop] at h
    split at h
    · simp at h
    · split at h
      · rename_i more s1 hc
        have hm := hcb s n (a ++ b)
        rw [hc] at hm
        simp only at hm
        subst hm
        simp only [Bool.false_eq_true, if_false] at h
        obtain ⟨s2, h1, h2⟩ := ih _ _ h
        exact ⟨s2, .cons n a s s1 s2 _ hc h1, h2⟩
      · rename_i hno _
        simp only [Prod.mk.injEq] at h
        exact absurd h.1 hno

theorem xmlReadNotif_more (env : Env) (tal : List Byte) (nf : Notif) (n : XNode) (r : List XNode) :
    (xmlReadNotif env tal nf n r).2.1 = false := by
  unfold xmlReadNotif
  split
  · split
    · rfl
    · split
      · rfl
      · split <;> rfl
  · split
    · split <;> rfl
    · rfl
  · rfl

/-- The locations a notification lists are of https URLs. -/
def Https (env : Env) (tal : List Byte) (nf : Notif) : Prop :=
  (∀ m, nf.snapshot = some m → ∃ g, uriCreate env.repo (some tal) .https none g = .ok m.uri) ∧
  ∀ x ∈ nf.deltas, ∃ g, uriCreate env.repo (some tal) .https none g = .ok x.info.uri

theorem sortDeltas_mem {max : Option Nat} {ds ds' : List Delta} (hbig : ds.length ≤ 2 ^ 64 - 1) (h : sortDeltas max ds = .ok ds') :
    ds'.Perm ds := by
  cases max with
  | some max =>
    rcases C44_contiguous max ds hbig with ⟨-, -, ds2, h1, h2, -⟩ | ⟨-, h1⟩
    · rw [h1] at h; cases h; exact h2
    · rw [h1] at h; cases h
  | none =>
    unfold sortDeltas at h
    split at h
    · cases h; exact .refl _
    · cases h

theorem parseNotificationDelta_ok {env : Env} {tal : List Byte} {nf nf' : Notif} {n : XNode}
    (h : parseNotificationDelta env tal nf n = (.ok, nf')) :
    ∃ x g, nf' = { nf with deltas := nf.deltas ++ [x] } ∧ uriCreate env.repo (some tal) .https none g = .ok x.info.uri := by
  unfold parseNotificationDelta at h
  split at h
  · simp at h
  · rename_i s hs
    split at h
    · rename_i m hm
      obtain ⟨m', g, e1, e2, e3, e4⟩ := parseFileMetadata_ok hm
      cases e1
      simp only [Prod.mk.injEq, true_and] at h
      exact ⟨⟨s, m⟩, g, h.symm, by simpa using e3⟩
    · simp at h
    · rename_i snd hno1 hno2 _
      simp only [Prod.mk.injEq] at h
      cases snd with
      | none => exact absurd rfl (hno2 h.1)
      | some x => exact absurd rfl (hno1 x h.1)

/-- What one accepted node does. -/
theorem xmlReadNotif_ok {env : Env} {tal : List Byte} {nf nf' : Notif} {n : XNode} {r : List XNode} {b : Bool}
    (h : xmlReadNotif env tal nf n r = (.ok, b, nf')) (hbig : nf.deltas.length ≤ 2 ^ 64 - 1) (hu : Https env tal nf) :
    Https env tal nf' ∧ nf'.deltas.length ≤ nf.deltas.length + 1 ∧ (n.type = .other → nf' = nf) ∧
    ((n.type ≠ .other → n.name ≠ "notification") → nf'.session = nf.session) ∧
    (n.type = .elem → n.name = "notification" → ∃ s, nf'.session = some s ∧ SessionAttrs n s ∧ nf'.deltas = nf.deltas) ∧
    (n.type = .endElem → n.name = "notification" → nf'.session = nf.session ∧
      ∃ ds, sortDeltas (nf.session.map Session.serial) nf.deltas = .ok ds ∧ nf'.deltas = ds) := by
  unfold xmlReadNotif at h
  split at h
  · rename_i hty
    split at h
    · rename_i hnm
      simp only [Prod.mk.injEq] at h
      obtain ⟨h1, -, h2⟩ := h
      obtain ⟨x, g, e1, e2⟩ := parseNotificationDelta_ok (Prod.ext h1 h2)
      subst e1
      refine ⟨⟨hu.1, fun y hy => ?_⟩, by simp, ?_, fun _ => rfl, ?_, ?_⟩
      · rcases List.mem_append.1 hy with hy | hy
        · exact hu.2 y hy
        · simp only [List.mem_singleton] at hy; subst hy; exact ⟨g, e2⟩
      · intro h; rw [hty] at h; cases h
      · intro _ h; rw [hnm] at h; simp at h
      · intro h; rw [hty] at h; cases h
    · split at h
      · rename_i hnm
        simp only [Prod.mk.injEq] at h
        obtain ⟨h1, -, h2⟩ := h
        obtain ⟨m, g, e1, e2, e3, e4⟩ := parseFileMetadata_ok (Prod.ext h1 rfl)
        subst h2
        refine ⟨⟨fun m' hm' => ?_, hu.2⟩, by simp, ?_, fun _ => rfl, ?_, ?_⟩
        · simp only at hm'
          cases e1.symm.trans hm'
          exact ⟨g, by simpa using e3⟩
        · intro h; rw [hty] at h; cases h
        · intro _ h; rw [hnm] at h; simp at h
        · intro h; rw [hty] at h; cases h
      · split at h
        · rename_i hnm
          simp only [Prod.mk.injEq] at h
          obtain ⟨h1, -, h2⟩ := h
          obtain ⟨a, e1, e2⟩ := parseSession_ok (Prod.ext h1 rfl)
          subst h2
          refine ⟨hu, by simp, ?_, ?_, ?_, ?_⟩
          · intro h; rw [hty] at h; cases h
          · intro h; exact absurd hnm (h (by rw [hty]; simp))
          · intro _ _; exact ⟨a, e1, e2, rfl⟩
          · intro h; rw [hty] at h; cases h
        · simp at h
  · rename_i hty
    split at h
    · rename_i hnm
      split at h
      · rename_i ds hds
        simp only [Prod.mk.injEq, true_and] at h
        obtain ⟨-, rfl⟩ := h
        have hperm := sortDeltas_mem hbig hds
        refine ⟨⟨hu.1, fun y hy => hu.2 y (hperm.mem_iff.1 hy)⟩, ?_, ?_, fun _ => rfl, ?_, ?_⟩
        · simp only; rw [hperm.length_eq]; omega
        · intro h; rw [hty] at h; cases h
        · intro h; rw [hty] at h; cases h
        · intro _ _; exact ⟨rfl, ds, hds, rfl⟩
      · simp at h
      · simp at h
      · simp at h
    · rename_i hnm
      simp only [Prod.mk.injEq, true_and] at h
      obtain ⟨-, rfl⟩ := h
      refine ⟨hu, by simp, fun _ => rfl, fun _ => rfl, ?_, ?_⟩
      · intro h; rw [hty] at h; cases h
      · intro _ h; exact absurd h hnm
  · rename_i hty1 hty2
    simp only [Prod.mk.injEq, true_and] at h
    obtain ⟨-, rfl⟩ := h
    refine ⟨hu, by simp, fun _ => rfl, fun _ => rfl, ?_, ?_⟩
    · intro h; exact absurd h hty1
    · intro h; exact absurd h hty2

theorem steps_notif {env : Env} {tal : List Byte} {ns : List XNode} {nf nf' : Notif} (h : Steps (xmlReadNotif env tal) ns nf nf')
    (hbig : nf.deltas.length + ns.length ≤ 2 ^ 64 - 1) (hu : Https env tal nf) :
    Https env tal nf' ∧ nf'.deltas.length ≤ nf.deltas.length + ns.length ∧ ((∀ n ∈ ns, n.type = .other) → nf' = nf) ∧
    ((∀ n ∈ ns, n.type ≠ .other → n.name ≠ "notification") → nf'.session = nf.session) := by
  induction h with
  | nil s => exact ⟨hu, by simp, fun _ => rfl, fun _ => rfl⟩
  | cons n ns s s1 s2 rest h r ih =>
    simp only [List.length_cons] at hbig
    obtain ⟨k1, k2, k3, k4, -, -⟩ := xmlReadNotif_ok h (by omega) hu
    obtain ⟨i1, i2, i3, i4⟩ := ih (by omega) k1
    refine ⟨i1, by simp only [List.length_cons]; omega, fun ho => ?_, fun ho => ?_⟩
    · rw [i3 (fun n hn => ho n (List.mem_cons_of_mem _ hn)), k3 (ho n (List.mem_cons_self ..))]
    · rw [i4 (fun n hn => ho n (List.mem_cons_of_mem _ hn)), k4 (ho n (List.mem_cons_self ..))]

/-- A notification that was accepted, and obeys the schema: it has a session, the deltas' serials are contiguous, ascending, and
end with the notification's. -/
theorem parseNotification_ok {env : Env} {tal : List Byte} {disk : Disk} {u : Uri} {nf : Notif} {c : List Byte}
    (hc : disk u.loc = some c) (hs : SchemaOk (env.xml c)) (h : parseNotification env tal disk u = (.ok, nf)) :
    ∃ s, nf.session = some s ∧ Https env tal nf ∧ nf.deltas.length ≤ s.serial + 1 ∧ nf.deltas.length < 2 ^ 64 ∧
      nf.deltas.map Delta.serial = serials (s.serial + 1 - nf.deltas.length) nf.deltas.length := by
  unfold parseNotification at h
  rw [hc] at h
  simp only at h
  unfold relaxNgParse at h
  split at h
  · obtain ⟨pre, root, body, fin, post, e, r1, r2, f1, f2, hpre, hpost, hbody, hlen⟩ := hs
    rw [e] at h hlen
    simp only [List.length_append, List.length_cons] at hlen
    have h0 : Https env tal ⟨none, none, []⟩ := ⟨(fun m h => by cases h), (fun m h => by cases h)⟩
    obtain ⟨n1, s1, h⟩ := readLoop_steps (xmlReadNotif_more env tal) _ _ pre _ _ h
    obtain ⟨a1, a2, a3, -⟩ := steps_notif s1 (by simp; omega) h0
    have := a3 hpre; subst this
    obtain ⟨n2, s2, h⟩ := readLoop_steps (xmlReadNotif_more env tal) _ _ [root] _ _ h
    cases s2 with
    | cons _ _ _ n2' _ rest hroot r =>
      cases r
      obtain ⟨b1, b2, -, -, b5, -⟩ := xmlReadNotif_ok hroot (by simp) h0
      obtain ⟨s, hs, -, hd⟩ := b5 r1 r2
      obtain ⟨n3, s3, h⟩ := readLoop_steps (xmlReadNotif_more env tal) _ _ body _ _ h
      have hd0 : n2.deltas.length = 0 := by rw [hd]; rfl
      obtain ⟨c1, c2, -, c4⟩ := steps_notif s3 (by omega) b1
      have hs3 := c4 hbody
      rw [hs] at hs3
      obtain ⟨n4, s4, h⟩ := readLoop_steps (xmlReadNotif_more env tal) _ _ [fin] _ _ h
      cases s4 with
      | cons _ _ _ n4' _ rest hfin r =>
        cases r
        obtain ⟨d1, d2, -, -, -, d6⟩ := xmlReadNotif_ok hfin (by omega) c1
        obtain ⟨e1, ds, e2, e3⟩ := d6 f1 f2
        rw [hs3] at e1 e2
        obtain ⟨n5, s5, h5⟩ := readLoop_steps (xmlReadNotif_more env tal) _ [] post _ _ (by simpa using h)
        obtain ⟨-, -, g3, -⟩ := steps_notif s5 (by omega) d1
        have := g3 hpost; subst this
        unfold readLoop at h5
        simp only [Prod.mk.injEq] at h5
        obtain ⟨-, rfl⟩ := h5
        rcases C44_contiguous s.serial n3.deltas (by omega) with ⟨m1, -, ds2, m2, m3, m4⟩ | ⟨-, m2⟩
        · simp only [Option.map_some] at e2
          rw [m2] at e2
          cases e2
          subst e3
          refine ⟨s, e1, d1, by rw [m3.length_eq]; exact m1, by omega, ?_⟩
          rw [m3.length_eq]; exact m4
        · simp only [Option.map_some] at e2
          rw [m2] at e2
          cases e2
  · simp at h

theorem uriCreate_type {repo t : List Byte} {k : UriType} {n : Option Uri} {g : List Byte} {u : Uri}
    (h : uriCreate repo (some t) k n g = .ok u) : u.type = k := by
  unfold uriCreate at h
  rw [bind_eq_ok] at h
  obtain ⟨a, -, h⟩ := h
  rw [bind_eq_ok] at h
  obtain ⟨b, -, h⟩ := h
  cases h; rfl

end Verif.Rrdp
