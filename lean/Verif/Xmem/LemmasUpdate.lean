import Verif.Xmem.LemmasDoc
/-
Triples: the whole update.
-/
namespace Verif.Xmem
open Verif.Heap

/-- What is true of the notification, given the nodes that were read. -/
structure PN (seen : List Ev) (sk : Bool) (n : Notif) : Prop where
  sk : sk = false
  ok : NOk n
  session : (∃ e ∈ seen, e.starts .notification) ∧ n.session.full ∨ (∀ e ∈ seen, e.starts .notification = false) ∧ n.session = Session.null
  snapshot : (∃ e ∈ seen, e.starts .snapshot) ∧ n.snapshot.full ∨ (∀ e ∈ seen, e.starts .snapshot = false) ∧ n.snapshot = Meta.null
  uri : ∀ e ∈ seen, e.starts .snapshot ∨ e.starts .delta → e.hasUri = true

theorem ex_snoc {seen : List Ev} {e : Ev} {p : Ev → Bool} (h : p e = true ∨ ∃ x ∈ seen, p x = true) : ∃ x ∈ seen ++ [e], p x = true := by
  rcases h with h | ⟨x, hx, h⟩
  · exact ⟨e, by simp, h⟩
  · exact ⟨x, by simp [hx], h⟩

theorem all_snoc {seen : List Ev} {e : Ev} {p : Ev → Bool} (h : ∀ x ∈ seen, p x = false) (he : p e = false) : ∀ x ∈ seen ++ [e], p x = false := by
  intro x hx
  rcases List.mem_append.1 hx with hx | hx
  · exact h x hx
  · simp only [List.mem_singleton] at hx
    subst hx
    exact he

theorem none_before {seen : List Ev} {e : Ev} {p : Ev → Bool} (h : (seen ++ [e]).countP p ≤ 1) (he : p e = true) : ∀ x ∈ seen, p x = false := by
  intro x hx
  have h0 : seen.countP p = 0 := by
    rw [List.countP_append, List.countP_singleton, if_pos he] at h
    omega
  have := List.countP_eq_zero.1 h0 x hx
  simpa using this

/-- A node that is neither `notification` nor `snapshot` leaves the rest alone. -/
theorem PN.snoc {seen : List Ev} {e : Ev} {n n' : Notif} (h : PN seen false n) (hn : NOk n') (h1 : n'.session = n.session) (h2 : n'.snapshot = n.snapshot)
    (e1 : e.starts .notification = false) (e2 : e.starts .snapshot = false) (hu : e.starts .delta = true → e.hasUri = true) : PN (seen ++ [e]) false n' := by
  refine ⟨rfl, hn, ?_, ?_, ?_⟩
  · rw [h1]
    rcases h.session with ⟨a, b⟩ | ⟨a, b⟩
    · exact Or.inl ⟨ex_snoc (Or.inr a), b⟩
    · exact Or.inr ⟨all_snoc a e1, b⟩
  · rw [h2]
    rcases h.snapshot with ⟨a, b⟩ | ⟨a, b⟩
    · exact Or.inl ⟨ex_snoc (Or.inr a), b⟩
    · exact Or.inr ⟨all_snoc a e2, b⟩
  · intro x hx
    rcases List.mem_append.1 hx with hx | hx
    · exact h.uri x hx
    · simp only [List.mem_singleton] at hx
      subst hx
      rintro (h' | h')
      · rw [e2] at h'; exact absurd h' (by simp)
      · exact hu h'

theorem o_xmlReadNotif {lib : Lib} (hl : Enforces lib) (L : List Id) (seen : List Ev) (e : Ev) (n : Notif) (more : Bool) (hP : PN seen false n) (hv : lib.valid (seen ++ [e]) = true) :
    Tri (O (n.things ++ L)) (xmlReadNotif n e more) (fun r s => O (r.2.2.things ++ L) s ∧ (r.2.2.deltas ≠ [] → r.2.2.arr ≠ none) ∧ (r.1 = false → PN (seen ++ [e]) r.2.1 r.2.2)) := by
  unfold xmlReadNotif
  cases ht : e.type with
  | other =>
    exact Tri.pure fun _ h => ⟨h, hP.ok.arr, fun _ => hP.snoc hP.ok rfl rfl (by simp [Ev.starts, ht]) (by simp [Ev.starts, ht]) (by simp [Ev.starts, ht])⟩
  | endElem =>
    refine Tri.ite (fun _ => ?_) fun _ => ?_
    · refine Tri.bind (o_sortDeltas hP.ok) fun r => Tri.pure fun _ h => ⟨h.1, h.2.1.arr, fun _ => hP.snoc h.2.1 h.2.2.1 h.2.2.2 (by simp [Ev.starts, ht]) (by simp [Ev.starts, ht]) (by simp [Ev.starts, ht])⟩
    · exact Tri.pure fun _ h => ⟨h, hP.ok.arr, fun _ => hP.snoc hP.ok rfl rfl (by simp [Ev.starts, ht]) (by simp [Ev.starts, ht]) (by simp [Ev.starts, ht])⟩
  | elem =>
    cases hn : e.name with
    | publish => exact Tri.pure fun _ h => ⟨h, hP.ok.arr, by simp⟩
    | withdraw => exact Tri.pure fun _ h => ⟨h, hP.ok.arr, by simp⟩
    | other => exact Tri.pure fun _ h => ⟨h, hP.ok.arr, by simp⟩
    | delta =>
      refine Tri.bind (o_parseNotificationDelta hP.ok) fun r => Tri.pure fun _ h => ⟨h.1, h.2.1.arr, fun hr => ?_⟩
      exact hP.snoc h.2.1 h.2.2.1 h.2.2.2.1 (by simp [Ev.starts, hn]) (by simp [Ev.starts, hn]) fun _ => h.2.2.2.2 hr
    | snapshot =>
      have hst : e.starts .snapshot = true := by simp [Ev.starts, ht, hn]
      have hs0 := none_before (hl.snapshot _ hv) hst
      have hnull : n.snapshot = Meta.null := by
        rcases hP.snapshot with ⟨⟨x, hx, h⟩, _⟩ | ⟨_, h⟩
        · rw [hs0 x hx] at h; exact absurd h (by simp)
        · exact h
      refine Tri.bind o_parseFileMetadata fun m => Tri.pre fun ⟨h1, h2⟩ => Tri.pure fun s h => ⟨h.perm fun i => ?_, hP.ok.arr, fun hm => ?_⟩
      · show (m.2.things ++ (n.things ++ L)).count i = (({ n with snapshot := m.2 } : Notif).things ++ L).count i
        simp only [Notif.things, hnull, null_meta, List.count_append, List.count_nil]; omega
      · obtain ⟨hu, -, hf⟩ := h2 hm
        have hf := hf rfl
        refine ⟨rfl, ⟨hP.ok.session, Or.inr hf, hP.ok.deltas, hP.ok.arr⟩, ?_, Or.inl ⟨⟨e, by simp, hst⟩, hf⟩, ?_⟩
        · rcases hP.session with ⟨a, b⟩ | ⟨a, b⟩
          · exact Or.inl ⟨ex_snoc (Or.inr a), b⟩
          · exact Or.inr ⟨all_snoc a (by simp [Ev.starts, hn]), b⟩
        · intro x hx h
          rcases List.mem_append.1 hx with hx | hx
          · exact hP.uri x hx h
          · simp only [List.mem_singleton] at hx
            subst hx
            exact hu
    | notification =>
      have hst : e.starts .notification = true := by simp [Ev.starts, ht, hn]
      have hs0 := none_before (hl.notification _ hv) hst
      have hnull : n.session = Session.null := by
        rcases hP.session with ⟨⟨x, hx, h⟩, _⟩ | ⟨_, h⟩
        · rw [hs0 x hx] at h; exact absurd h (by simp)
        · exact h
      refine Tri.bind (Q := fun r s => O (r.2.things ++ (n.things ++ L)) s ∧ (r.1 = false → r.2.full)) ?_ fun r => Tri.pre fun h2 => Tri.pure fun s h => ⟨h.perm fun i => ?_, hP.ok.arr, fun hm => ?_⟩
      · rw [hnull]
        exact Tri.weaken (o_parseSession (hl.version _ hv e (by simp))) (fun _ h => h) fun r s h => ⟨h.1, h.2.1⟩
      · show (r.2.things ++ (n.things ++ L)).count i = (({ n with session := r.2 } : Notif).things ++ L).count i
        simp only [Notif.things, hnull, null_session, List.count_append, List.count_nil]; omega
      · have hf := h2 hm
        refine ⟨rfl, ⟨Or.inr hf, hP.ok.snapshot, hP.ok.deltas, hP.ok.arr⟩, Or.inl ⟨⟨e, by simp, hst⟩, hf⟩, ?_, ?_⟩
        · rcases hP.snapshot with ⟨a, b⟩ | ⟨a, b⟩
          · exact Or.inl ⟨ex_snoc (Or.inr a), b⟩
          · exact Or.inr ⟨all_snoc a (by simp [Ev.starts, hn]), b⟩
        · intro x hx h
          rcases List.mem_append.1 hx with hx | hx
          · exact hP.uri x hx h
          · simp only [List.mem_singleton] at hx
            subst hx
            simp [Ev.starts, hn] at h

/-- What is true of a notification that was accepted. -/
structure NFull (n : Notif) : Prop where
  session : n.session.full
  snapshot : n.snapshot.full
  deltas : ∀ d ∈ n.deltas, d.full
  arr : n.deltas ≠ [] → n.arr ≠ none

theorem o_parseNotification {lib : Lib} (hl : Enforces lib) {L : List Id} {doc : List Ev} : Tri (O L) (parseNotification lib doc) (fun r s => match r with
    | none => O L s
    | some n => O (n.things ++ L) s ∧ NFull n) := by
  refine Tri.bind (Q := fun n s => O (n.things ++ L) s ∧ PN [] false n) ?_ fun n => Tri.pre fun h0 => ?_
  · refine Tri.bind o_new fun u => Tri.pure fun s h => ⟨h, rfl, ⟨Or.inl rfl, Or.inl rfl, ?_, ?_⟩, Or.inr ⟨by simp, rfl⟩, Or.inr ⟨by simp, rfl⟩, by simp⟩
    · intro d hd; exact absurd hd (by simp)
    · intro h; exact absurd rfl h
  refine Tri.bind (o_relaxNgParse Notif.things PN (fun n => n.deltas ≠ [] → n.arr ≠ none) (fun _ _ _ h => h.ok.arr) (fun _ _ _ h => absurd h.sk (by simp)) (o_xmlReadNotif hl) doc n h0) fun r => Tri.pre fun ⟨h1, h2⟩ => ?_
  refine Tri.ite (fun _ => Tri.bind (o_updateNotificationCleanup h1) fun _ => Tri.pure fun _ h => h) fun hr => Tri.pure fun s h => ?_
  refine ⟨h, ?_⟩
  obtain ⟨seen, sk, hve, hP⟩ := h2 (by simpa using hr)
  rcases hl.whole _ hve with ⟨⟨x, hx, hxs⟩, ⟨y, hy, hys⟩⟩ | ⟨x, hx, hxs, hxu⟩
  · refine ⟨?_, ?_, hP.ok.deltas, hP.ok.arr⟩
    · rcases hP.session with ⟨-, h⟩ | ⟨h, -⟩
      · exact h
      · rw [h x hx] at hxs; exact absurd hxs (by simp)
    · rcases hP.snapshot with ⟨-, h⟩ | ⟨h, -⟩
      · exact h
      · rw [h y hy] at hys; exact absurd hys (by simp)
  · rw [hP.uri x hx hxs] at hxu; exact absurd hxu (by simp)

/-! ### Snapshots and deltas -/

theorem o_xmlReadSnapshot {lib : Lib} (hl : Enforces lib) {M : List Id} {x : Session} (hx : ∀ i ∈ x.things, i ∈ M) (L : List Id) (seen : List Ev) (e : Ev) (st : Session) (more : Bool) (hst : st = x) (hv : lib.valid (seen ++ [e]) = true) :
    Tri (O (M ++ L)) (xmlReadSnapshot st e more) (fun r s => O (M ++ L) s ∧ True ∧ (r.1 = false → r.2.2 = x)) := by
  subst hst
  have hend : ∀ a b : Bool, Tri (O (M ++ L)) (pure (a, b, st) : HM (Bool × Bool × Session)) (fun r s => O (M ++ L) s ∧ True ∧ (r.1 = false → r.2.2 = st)) := fun a b => Tri.pure fun _ h => ⟨h, trivial, fun _ => rfl⟩
  unfold xmlReadSnapshot
  cases ht : e.type with
  | other => exact hend _ _
  | endElem => exact hend _ _
  | elem =>
    cases hn : e.name with
    | publish => exact Tri.bind o_handlePublish fun _ => hend _ _
    | snapshot => exact Tri.bind (o_validateSession (hl.version _ hv e (by simp)) fun i hi => by simp [hx i hi]) fun _ => hend _ _
    | notification => exact hend _ _
    | delta => exact hend _ _
    | withdraw => exact hend _ _
    | other => exact hend _ _

theorem o_xmlReadDelta {lib : Lib} (hl : Enforces lib) {M : List Id} {x : Session} (hx : ∀ i ∈ x.things, i ∈ M) (L : List Id) (seen : List Ev) (e : Ev) (st : Session) (more : Bool) (hst : st = x) (hv : lib.valid (seen ++ [e]) = true) :
    Tri (O (M ++ L)) (xmlReadDelta st e more) (fun r s => O (M ++ L) s ∧ True ∧ (r.1 = false → r.2.2 = x)) := by
  subst hst
  have hend : ∀ a b : Bool, Tri (O (M ++ L)) (pure (a, b, st) : HM (Bool × Bool × Session)) (fun r s => O (M ++ L) s ∧ True ∧ (r.1 = false → r.2.2 = st)) := fun a b => Tri.pure fun _ h => ⟨h, trivial, fun _ => rfl⟩
  unfold xmlReadDelta
  cases ht : e.type with
  | other => exact hend _ _
  | endElem => exact hend _ _
  | elem =>
    cases hn : e.name with
    | publish => exact Tri.bind o_handlePublish fun _ => hend _ _
    | delta => exact Tri.bind (o_validateSession (hl.version _ hv e (by simp)) fun i hi => by simp [hx i hi]) fun _ => hend _ _
    | withdraw => exact Tri.bind o_handleWithdraw fun _ => hend _ _
    | notification => exact hend _ _
    | snapshot => exact hend _ _
    | other => exact hend _ _

theorem o_relaxBorrow {lib : Lib} {cb : Session → Ev → Bool → HM (Bool × Bool × Session)} {M : List Id} {x : Session}
    (hcb : ∀ (L : List Id) (seen : List Ev) (e : Ev) (st : Session) (more : Bool), st = x → lib.valid (seen ++ [e]) = true → Tri (O (M ++ L)) (cb st e more) (fun r s => O (M ++ L) s ∧ True ∧ (r.1 = false → r.2.2 = x))) (doc : List Ev) :
    Tri (O M) (relaxNgParse lib cb doc x) (fun _ => O M) := by
  have h := o_relaxNgParse (lib := lib) (L := []) (fun _ => M) (fun _ _ st => st = x) (fun _ => True) (fun _ _ _ _ => trivial) (fun _ _ _ h => h) hcb doc x rfl
  exact o_perm (Tri.weaken h (fun _ h => h) fun r s h => by simpa using h.1) fun i => by simp

theorem snapshot_in {n : Notif} {L : List Id} (h : ∀ i ∈ n.things, i ∈ L) : ∀ i ∈ n.snapshot.things, i ∈ L := fun i hi => h i (by simp [Notif.things, hi])
theorem session_in {n : Notif} {L : List Id} (h : ∀ i ∈ n.things, i ∈ L) : ∀ i ∈ n.session.things, i ∈ L := fun i hi => h i (by simp [Notif.things, hi])
theorem delta_in {n : Notif} {L : List Id} (h : ∀ i ∈ n.things, i ∈ L) {d : Delta} (hd : d ∈ n.deltas) : ∀ i ∈ d.things, i ∈ L := fun i hi => h i (by
  simp only [Notif.things, List.mem_append]
  exact Or.inl (Or.inl (Or.inr (List.mem_flatMap.2 ⟨d, hd, hi⟩))))
theorem uri_in {n : Notif} {L : List Id} (h : ∀ i ∈ n.things, i ∈ L) : n.uri ∈ L := h _ (by simp [Notif.things])

theorem o_handleSnapshot {lib : Lib} (hl : Enforces lib) {docs : Docs} {L : List Id} {n : Notif} (hn : NFull n) (h : ∀ i ∈ n.things, i ∈ L) : Tri (O L) (handleSnapshot lib docs n) (fun _ => O L) := by
  have hs := snapshot_in h
  have hu : ∀ i, n.snapshot.uri = some i → i ∈ L := fun i hi => hs i (by simp [Meta.things, hi])
  have hp : Tri (O L) (parseSnapshot lib docs n) (fun _ => O L) := by
    refine Tri.bind (o_validateHash hn.snapshot hs) fun _ => Tri.ite (fun _ => Tri.pure fun _ h => h) fun _ => ?_
    refine Tri.bind (o_use (uri_in h)) fun _ => Tri.bind (o_useP hn.snapshot.1 hu) fun _ => Tri.bind o_ask fun a => ?_
    exact Tri.bind (o_relaxBorrow (o_xmlReadSnapshot hl (session_in h)) _) fun _ => Tri.pure fun _ h => h
  refine Tri.bind (o_use (uri_in h)) fun _ => Tri.bind (Q := fun _ => O L) ?_ fun _ => ?_
  · exact Tri.bind o_new fun _ => Tri.bind (o_use (by simp)) fun _ => o_free
  refine Tri.bind (o_useP hn.snapshot.1 hu) fun _ => Tri.bind o_askB fun _ => Tri.ite (fun _ => Tri.pure fun _ h => h) fun _ => ?_
  exact Tri.bind hp fun _ => Tri.bind (o_deleteFile hn.snapshot.1 hu) fun _ => Tri.pure fun _ h => h

theorem o_handleDelta {lib : Lib} (hl : Enforces lib) {docs : Docs} {L : List Id} {n : Notif} (hn : NFull n) (h : ∀ i ∈ n.things, i ∈ L) {d : Delta} (hd : d ∈ n.deltas) : Tri (O L) (handleDelta lib docs n d) (fun _ => O L) := by
  have hf := hn.deltas d hd
  have hdi := delta_in h hd
  have hm : ∀ i ∈ d.info.things, i ∈ L := fun i hi => hdi i (by simp [Delta.things, hi])
  have hu : ∀ i, d.info.uri = some i → i ∈ L := fun i hi => hm i (by simp [Meta.things, hi])
  have hp : Tri (O L) (parseDelta lib docs n d) (fun _ => O L) := by
    refine Tri.bind (o_validateHash hf.2 hm) fun _ => Tri.ite (fun _ => Tri.pure fun _ h => h) fun _ => ?_
    refine Tri.bind (o_use (uri_in h)) fun _ => Tri.bind (o_useP hf.2.1 hu) fun _ => Tri.bind o_ask fun a => ?_
    refine Tri.bind (o_relaxBorrow (o_xmlReadDelta hl fun i hi => ?_) _) fun _ => Tri.pure fun _ h => h
    simp only [Session.things, List.mem_append] at hi
    rcases hi with hi | hi
    · exact session_in h i (by simp only [Session.things, List.mem_append]; exact Or.inl hi)
    · exact hdi i (by simp [Delta.things, hi])
  refine Tri.bind (o_useP hf.2.1 hu) fun _ => Tri.bind o_askB fun _ => Tri.ite (fun _ => Tri.pure fun _ h => h) fun _ => ?_
  exact Tri.bind hp fun _ => Tri.bind (o_deleteFile hf.2.1 hu) fun _ => Tri.pure fun _ h => h

theorem o_deltaLoop {lib : Lib} (hl : Enforces lib) {docs : Docs} {L : List Id} {n : Notif} (hn : NFull n) (h : ∀ i ∈ n.things, i ∈ L) : ∀ ds : List Delta, (∀ d ∈ ds, d ∈ n.deltas) → Tri (O L) (deltaLoop lib docs n ds) (fun _ => O L)
  | [], _ => Tri.pure fun _ h => h
  | d :: ds, hds => by
    have hd := hds d (by simp)
    refine Tri.bind (o_useP (hn.arr (List.ne_nil_of_mem hd)) fun i hi => h i (by simp [Notif.things, hi])) fun _ => Tri.bind (o_handleDelta hl hn h hd) fun _ => ?_
    exact Tri.ite (fun _ => Tri.pure fun _ h => h) fun _ => o_deltaLoop hl hn h ds fun d hd => hds d (by simp [hd])

theorem o_handleDeltas {lib : Lib} (hl : Enforces lib) {docs : Docs} {L : List Id} {n : Notif} (hn : NFull n) (h : ∀ i ∈ n.things, i ∈ L) {x : Serial} (hx : x.num ≠ none) (hx' : ∀ i ∈ x.things, i ∈ L) :
    Tri (O L) (handleDeltas lib docs n x) (fun _ => O L) := by
  have hse := session_in h
  have p1 : Tri (O L) (peek x.str) (fun _ => O L) := o_peek fun i hi => hx' i (by simp [Serial.things, hi])
  have p2 : Tri (O L) (peek n.session.serial.str) (fun _ => O L) := o_peek fun i hi => hse i (by simp [Session.things, Serial.things, hi])
  have hend : Tri (O L) (do peek n.session.serial.str; peek x.str; return true : HM Bool) (fun _ => O L) := Tri.bind p2 fun _ => Tri.bind p1 fun _ => Tri.pure fun _ h => h
  refine Tri.ite (fun _ => Tri.pure fun _ h => h) fun _ => Tri.bind p1 fun _ => Tri.bind p2 fun _ => Tri.bind o_new fun diff => Tri.bind (o_use (by simp)) fun _ => ?_
  refine Tri.bind (o_useP hn.session.2.1 fun i hi => List.mem_cons_of_mem _ (hse i (by simp [Session.things, Serial.things, hi]))) fun _ => ?_
  refine Tri.bind (o_useP hx fun i hi => List.mem_cons_of_mem _ (hx' i (by simp [Serial.things, hi]))) fun _ => ?_
  refine Tri.bind o_askB fun _ => Tri.ite (fun _ => Tri.bind o_free fun _ => hend) fun _ => Tri.bind (o_use (by simp)) fun _ => ?_
  refine Tri.bind o_askB fun _ => Tri.ite (fun _ => Tri.bind o_free fun _ => hend) fun _ => Tri.bind o_ask fun d => Tri.bind o_free fun _ => ?_
  exact Tri.ite (fun _ => hend) fun _ => o_deltaLoop hl hn h _ fun d hd => List.mem_of_mem_drop hd

theorem o_getMetadata {lib : Lib} (hl : Enforces lib) {docs : Docs} {L : List Id} : Tri (O L) (getMetadata lib docs) (fun r s => O (r.2.things ++ L) s ∧ (r.2 = Session.null ∨ r.2.full)) := by
  refine Tri.bind o_askB fun _ => Tri.ite (fun _ => Tri.bind o_askB fun _ => Tri.pure fun _ h => ⟨h, Or.inl rfl⟩) fun _ => Tri.bind o_ask fun a => Tri.bind (o_parseNotification hl) fun r => ?_
  cases r with
  | none => exact Tri.pure fun _ h => ⟨h, Or.inl rfl⟩
  | some n =>
    refine Tri.pre fun hn => Tri.bind (o_perm (o_updateNotificationCleanup (n := { n with session := Session.null }) (L := n.session.things ++ L) hn.arr) fun i => ?_) fun _ => Tri.pure fun _ h => ⟨h, Or.inr hn.session⟩
    simp only [Notif.things, null_session, List.count_append, List.count_nil]; omega

theorem o_useNotification {lib : Lib} (hl : Enforces lib) {docs : Docs} {L : List Id} {n : Notif} (hn : NFull n) (h : ∀ i ∈ n.things, i ∈ L) {old : Session} (ho : ∀ i ∈ old.things, i ∈ L) :
    Tri (O L) (useNotification lib docs old n) (fun _ => O L) := by
  have hse := session_in h
  have p1 : Tri (O L) (peek n.session.sid) (fun _ => O L) := o_peek fun i hi => hse i (by simp [Session.things, hi])
  have p2 : Tri (O L) (peek n.session.serial.str) (fun _ => O L) := o_peek fun i hi => hse i (by simp [Session.things, Serial.things, hi])
  have p3 : Tri (O L) (peek n.session.serial.num) (fun _ => O L) := o_peek fun i hi => hse i (by simp [Session.things, Serial.things, hi])
  have q1 : Tri (O L) (peek old.sid) (fun _ => O L) := o_peek fun i hi => ho i (by simp [Session.things, hi])
  have q2 : Tri (O L) (peek old.serial.num) (fun _ => O L) := o_peek fun i hi => ho i (by simp [Session.things, Serial.things, hi])
  have hs := o_handleSnapshot hl (docs := docs) hn h
  refine Tri.bind p1 fun _ => Tri.bind p2 fun _ => Tri.ite (fun _ => hs) fun hne => Tri.bind q1 fun _ => Tri.bind p1 fun _ => Tri.bind o_askB fun _ => Tri.ite (fun _ => hs) fun _ => ?_
  refine Tri.bind q2 fun _ => Tri.bind p3 fun _ => Tri.bind o_askB fun _ => Tri.ite (fun _ => ?_) fun _ => Tri.pure fun _ h => h
  refine Tri.bind (o_handleDeltas hl hn h (fun h0 => hne (Or.inr h0)) fun i hi => ho i (by simp [Session.things, hi])) fun _ => Tri.ite (fun _ => hs) fun _ => Tri.pure fun _ h => h

theorem o_rrdpUpdate {lib : Lib} (hl : Enforces lib) (docs : Docs) {L : List Id} : Tri (O L) (rrdpUpdate lib docs) (fun _ => O L) := by
  refine Tri.bind (o_getMetadata hl) fun m => Tri.pre fun hm => ?_
  have hend : ∀ b : Bool, Tri (O (m.2.things ++ L)) (do sessionCleanup m.2; return b : HM Bool) (fun _ => O L) := fun b => Tri.bind o_sessionCleanup fun _ => Tri.pure fun _ h => h
  refine Tri.ite (fun _ => hend true) fun _ => Tri.bind (o_peek fun i hi => by simp [Session.things, hi]) fun _ => Tri.bind (o_peek fun i hi => by simp [Session.things, Serial.things, hi]) fun _ => ?_
  refine Tri.bind o_askB fun _ => Tri.ite (fun _ => hend true) fun _ => Tri.bind o_askB fun _ => Tri.ite (fun _ => hend false) fun _ => ?_
  refine Tri.bind o_ask fun a => Tri.bind (o_parseNotification hl) fun r => ?_
  cases r with
  | none => exact hend true
  | some n =>
    refine Tri.pre fun hn => Tri.bind (o_useNotification hl hn (fun i hi => by simp [hi]) fun i hi => by simp [hi]) fun _ => ?_
    exact Tri.bind (o_updateNotificationCleanup hn.arr) fun _ => hend _

theorem o_updates {lib : Lib} (hl : Enforces lib) (docs : Docs) {L : List Id} : ∀ n, Tri (O L) (updates lib docs n) (fun _ => O L)
  | 0 => Tri.pure fun _ h => h
  | n + 1 => Tri.bind (o_rrdpUpdate hl docs) fun _ => o_updates hl docs n

end Verif.Xmem
