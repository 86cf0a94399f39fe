import Verif.Xmem.Lemmas
/-
Triples: documents.
-/
namespace Verif.Xmem
open Verif.Heap

theorem o_parsePublish {L : List Id} {e : Ev} {more : Bool} {hr : Hr} : Tri (O L) (parsePublish e more hr)
    (fun r s => O (r.2.2.toList ++ (r.2.1.things ++ L)) s ∧ (r.1 = false → r.2.1.uri ≠ none ∧ r.2.2 ≠ none)) := by
  refine Tri.bind o_parseFileMetadata fun m => Tri.pre fun ⟨_, h2⟩ => ?_
  refine Tri.ite (fun _ => Tri.pure fun _ h => ⟨h, by simp⟩) fun hm => ?_
  obtain ⟨-, hu, -⟩ := h2 (by simpa using hm)
  have hu' : Tri (O (m.2.things ++ L)) (useP m.2.uri) (fun _ => O (m.2.things ++ L)) := o_useP hu fun i hi => by simp [Meta.things, hi]
  refine Tri.bind o_askB fun _ => Tri.ite (fun _ => Tri.bind hu' fun _ => Tri.pure fun _ h => ⟨h, by simp⟩) fun _ => ?_
  refine Tri.bind o_create fun str => ?_
  cases str with
  | none => exact Tri.pure fun _ h => ⟨h, by simp⟩
  | some str =>
    refine Tri.bind (o_base64Read (by simp)) fun c => Tri.pre fun ⟨h3, h4⟩ => ?_
    refine Tri.bind (o_perm (o_free (L := c.2.toList ++ (m.2.things ++ L))) fun i => ?_) fun _ => ?_
    · simp only [Option.toList, List.count_append, List.count_cons, List.count_nil]; omega
    refine Tri.ite (fun hc => Tri.pure fun _ h => ⟨by rw [h4 hc] at h; exact h, by simp⟩) fun hc => ?_
    have hc := h3 (by simpa using hc)
    refine Tri.ite (fun hh => ?_) fun _ => Tri.pure fun _ h => ⟨h, fun _ => ⟨hu, hc⟩⟩
    have hf : m.2.full := ⟨hu, by intro h0; rw [h0] at hh; exact absurd hh (by simp)⟩
    exact Tri.bind (o_validateHash hf fun i hi => by simp [hi]) fun _ => Tri.pure fun _ h => ⟨h, fun _ => ⟨hu, hc⟩⟩

theorem o_writeFile {L : List Id} {u c : Ptr} (hu : u ≠ none) (hc : c ≠ none) (hu' : ∀ i, u = some i → i ∈ L) (hc' : ∀ i, c = some i → i ∈ L) : Tri (O L) (writeFile u c) (fun _ => O L) := by
  refine Tri.bind (o_useP hu hu') fun _ => Tri.bind o_askB fun _ => Tri.ite (fun _ => Tri.pure fun _ h => h) fun _ => Tri.bind o_create fun out => ?_
  cases out with
  | none => exact Tri.pure fun _ h => h
  | some out =>
    refine Tri.bind (o_useP hc fun i hi => by simp [hc' i hi]) fun _ => Tri.bind (o_use (by simp)) fun _ => Tri.bind o_free fun _ => Tri.bind o_askB fun _ => ?_
    exact Tri.ite (fun _ => Tri.bind (o_useP hu hu') fun _ => Tri.pure fun _ h => h) fun _ => Tri.pure fun _ h => h

theorem o_deleteFile {L : List Id} {u : Ptr} (hu : u ≠ none) (hu' : ∀ i, u = some i → i ∈ L) : Tri (O L) (deleteFile u) (fun _ => O L) :=
  Tri.bind (o_useP hu hu') fun _ => o_askB

theorem o_handlePublish {L : List Id} {e : Ev} {more : Bool} {hr : Hr} : Tri (O L) (handlePublish e more hr) (fun _ => O L) := by
  refine Tri.bind o_parsePublish fun r => Tri.pre fun hr => ?_
  have hw : Tri (O (r.2.2.toList ++ (r.2.1.things ++ L))) (unlessFailed r.1 (writeFile r.2.1.uri r.2.2)) (fun _ => O (r.2.2.toList ++ (r.2.1.things ++ L))) := by
    refine Tri.ite (fun _ => Tri.pure fun _ h => h) fun h => ?_
    obtain ⟨hu, hc⟩ := hr (by simpa using h)
    exact o_writeFile hu hc (fun i hi => by simp [Meta.things, hi]) fun i hi => by simp [hi]
  refine Tri.bind hw fun _ => ?_
  refine Tri.bind (o_perm (o_metadataCleanup (L := r.2.2.toList ++ L)) fun i => ?_) fun _ => Tri.bind (o_freeP _) fun _ => Tri.pure fun _ h => h
  simp only [List.count_append]; omega

theorem o_handleWithdraw {L : List Id} {e : Ev} : Tri (O L) (handleWithdraw e) (fun _ => O L) := by
  have hp : Tri (O L) (parseWithdraw e) (fun r s => O (r.2.things ++ L) s ∧ (r.1 = false → r.2.uri ≠ none)) := by
    refine Tri.bind o_parseFileMetadata fun m => Tri.pre fun ⟨_, h2⟩ => ?_
    refine Tri.ite (fun _ => Tri.pure fun _ h => ⟨h, by simp⟩) fun hm => ?_
    obtain ⟨-, hu, hf⟩ := h2 (by simpa using hm)
    exact Tri.bind (o_validateHash (hf rfl) fun i hi => by simp [hi]) fun _ => Tri.pure fun _ h => ⟨h, fun _ => hu⟩
  refine Tri.bind hp fun r => Tri.pre fun hr => ?_
  have hw : Tri (O (r.2.things ++ L)) (unlessFailed r.1 (deleteFile r.2.uri)) (fun _ => O (r.2.things ++ L)) := by
    refine Tri.ite (fun _ => Tri.pure fun _ h => h) fun h => ?_
    exact o_deleteFile (hr (by simpa using h)) fun i hi => by simp [Meta.things, hi]
  exact Tri.bind hw fun _ => Tri.bind o_metadataCleanup fun _ => Tri.pure fun _ h => h

/-! ### Notifications -/

theorem o_deltasAdd {L : List Id} {n : Notif} {d : Delta} : Tri (O (d.things ++ (n.things ++ L))) (deltasAdd n d)
    (fun r s => O (r.things ++ L) s ∧ r.deltas = n.deltas ++ [d] ∧ r.arr ≠ none ∧ r.session = n.session ∧ r.snapshot = n.snapshot) := by
  have h1 : Tri (O (d.things ++ (n.things ++ L))) (firstAlloc n.arr) (fun a => O (a :: (d.things ++ ({ n with arr := none }.things ++ L)))) := by
    cases ha : n.arr with
    | none =>
      refine Tri.weaken o_new (fun _ h => h) fun a s h => h.perm fun i => ?_
      simp only [Notif.things, ha]
    | some a =>
      refine Tri.pure fun s h => h.perm fun i => ?_
      simp only [Notif.things, ha, Option.toList, List.count_append, List.count_cons, List.count_nil]; omega
  have h2 : ∀ a M, Tri (O (a :: M)) (grow a) (fun a => O (a :: M)) := fun a M => Tri.bind o_askB fun b => Tri.ite (fun _ => o_realloc) fun _ => Tri.pure fun _ h => h
  refine Tri.bind h1 fun a => Tri.bind (h2 a _) fun a => ?_
  refine Tri.bind (o_use (by simp)) fun _ => Tri.pure fun s h => ⟨h.perm fun i => ?_, rfl, by simp, rfl, rfl⟩
  simp only [Notif.things, Option.toList, List.flatMap_append, List.flatMap_cons, List.flatMap_nil, List.append_nil, List.count_append, List.count_cons, List.count_nil]; omega

/-- What is true of a notification that is being read. -/
structure NOk (n : Notif) : Prop where
  session : n.session = Session.null ∨ n.session.full
  snapshot : n.snapshot = Meta.null ∨ n.snapshot.full
  deltas : ∀ d ∈ n.deltas, d.full
  arr : n.deltas ≠ [] → n.arr ≠ none

theorem o_parseNotificationDelta {L : List Id} {e : Ev} {n : Notif} (hn : NOk n) : Tri (O (n.things ++ L)) (parseNotificationDelta e n)
    (fun r s => O (r.2.things ++ L) s ∧ NOk r.2 ∧ r.2.session = n.session ∧ r.2.snapshot = n.snapshot ∧ (r.1 = false → e.hasUri = true)) := by
  refine Tri.bind o_parseSerial fun sr => Tri.pre fun ⟨h1, h2⟩ => Tri.ite (fun h => ?_) fun h => ?_
  · exact Tri.pure fun _ h' => ⟨by rw [h2 h] at h'; exact h', hn, rfl, rfl, by simp⟩
  have hs := h1 (by simpa using h)
  refine Tri.bind o_parseFileMetadata fun m => Tri.pre fun ⟨h3, h4⟩ => Tri.ite (fun h => ?_) fun h => ?_
  · rw [h3 h]
    exact Tri.bind o_serialCleanup fun _ => Tri.pure fun _ h' => ⟨h'.1, hn, rfl, rfl, by simp⟩
  obtain ⟨hu, -, hf⟩ := h4 (by simpa using h)
  refine Tri.bind (o_perm (o_deltasAdd (L := L) (n := n) (d := ⟨sr.2, m.2⟩)) fun i => ?_) fun r => Tri.pure fun s h' => ?_
  · simp only [Delta.things, List.count_append]; omega
  obtain ⟨a, b, c, d, e'⟩ := h'
  refine ⟨a, ⟨by rw [d]; exact hn.session, by rw [e']; exact hn.snapshot, ?_, fun _ => c⟩, d, e', fun _ => hu⟩
  intro x hx
  rw [b] at hx
  rcases List.mem_append.1 hx with hx | hx
  · exact hn.deltas x hx
  · simp only [List.mem_singleton] at hx
    subst hx
    exact ⟨hs, hf rfl⟩

theorem swap_perm {l : List Delta} {i t : Nat} {d d2 : Delta} (hi : l[i]? = some d) (ht : l[t]? = some d2) : ((l.set t d).set i d2).Perm l := by
  obtain ⟨hi', rfl⟩ := List.getElem?_eq_some_iff.1 hi
  obtain ⟨ht', rfl⟩ := List.getElem?_eq_some_iff.1 ht
  exact List.set_set_perm ht' hi'

theorem count_flatMap_perm {l l' : List Delta} (h : l.Perm l') (i : Id) : (l.flatMap Delta.things).count i = (l'.flatMap Delta.things).count i :=
  (h.flatMap_right _).count_eq i

theorem o_swapUntilSorted {L : List Id} {arr : Ptr} {i : Nat} {min aux : Id} {max : Serial} (ha : arr ≠ none) (ha' : ∀ i, arr = some i → i ∈ L) (hmin : min ∈ L) (haux : aux ∈ L)
    (hmax : max.full) (hmax' : ∀ i ∈ max.things, i ∈ L) : ∀ (k : Nat) (ds : List Delta), i < ds.length → (∀ d ∈ ds, d.full) → (∀ i ∈ ds.flatMap Delta.things, i ∈ L) →
    Tri (O L) (swapUntilSorted arr i min aux max k ds) (fun r s => O L s ∧ r.2.Perm ds)
  | 0, ds, _, _, _ => Tri.pure fun _ h => ⟨h, List.Perm.refl _⟩
  | k + 1, ds, hi, hf, hds => by
    refine Tri.bind (o_useP ha ha') fun _ => ?_
    have hi? : ds[i]? = some ds[i] := List.getElem?_eq_getElem hi
    rw [hi?]
    generalize hd : ds[i] = d at hi?
    have hdm : d ∈ ds := hd ▸ List.getElem_mem hi
    have hdL : ∀ x ∈ d.things, x ∈ L := fun x hx => hds x (List.mem_flatMap.2 ⟨d, hdm, hx⟩)
    have q1 : Tri (O L) (useP d.serial.num) (fun _ => O L) := o_useP (hf d hdm).1.1 fun i hi => hdL i (by simp [Delta.things, Serial.things, hi])
    have q2 : ∀ L', (∀ x ∈ L, x ∈ L') → Tri (O L') (peek d.serial.str) (fun _ => O L') := fun L' hL => o_peek fun i hi => hL _ (hdL i (by simp [Delta.things, Serial.things, hi]))
    have q3 : Tri (O L) (useP max.num) (fun _ => O L) := o_useP hmax.1 fun i hi => hmax' i (by simp [Serial.things, hi])
    have q4 : Tri (O L) (peek max.str) (fun _ => O L) := o_peek fun i hi => hmax' i (by simp [Serial.things, hi])
    have hend : ∀ b : Bool, Tri (O L) (pure (b, ds) : HM (Bool × List Delta)) (fun r s => O L s ∧ r.2.Perm ds) := fun b => Tri.pure fun _ h => ⟨h, List.Perm.refl _⟩
    refine Tri.bind q1 fun _ => Tri.bind (o_use hmin) fun _ => Tri.bind o_askB fun _ => Tri.ite (fun _ => ?_) fun _ => ?_
    · exact Tri.bind o_new fun _ => Tri.bind (q2 _ fun x hx => by simp [hx]) fun _ => Tri.bind (o_use (by simp)) fun _ => Tri.bind o_free fun _ => hend true
    refine Tri.bind q3 fun _ => Tri.bind o_askB fun _ => Tri.ite (fun _ => Tri.bind (q2 L fun _ h => h) fun _ => Tri.bind q4 fun _ => hend true) fun _ => ?_
    refine Tri.bind (o_use haux) fun _ => Tri.bind o_askB fun _ => Tri.ite (fun _ => hend true) fun _ => Tri.bind o_ask fun a => ?_
    refine Tri.ite (fun _ => hend false) fun _ => ?_
    have ht : a % ds.length < ds.length := Nat.mod_lt _ (by omega)
    have ht? : ds[a % ds.length]? = some ds[a % ds.length] := List.getElem?_eq_getElem ht
    rw [ht?]
    generalize hd2 : ds[a % ds.length] = d2 at ht?
    have hdm2 : d2 ∈ ds := hd2 ▸ List.getElem_mem ht
    have hdL2 : ∀ x ∈ d2.things, x ∈ L := fun x hx => hds x (List.mem_flatMap.2 ⟨d2, hdm2, hx⟩)
    refine Tri.bind (o_useP (hf d2 hdm2).1.1 fun i hi => hdL2 i (by simp [Delta.things, Serial.things, hi])) fun _ => Tri.bind o_askB fun _ => ?_
    refine Tri.ite (fun _ => Tri.bind (q2 L fun _ h => h) fun _ => hend true) fun _ => ?_
    have hp := swap_perm hi? ht?
    refine Tri.weaken (o_swapUntilSorted ha ha' hmin haux hmax hmax' k ((ds.set (a % ds.length) d).set i d2) (by simpa using hi) (fun x hx => hf x (hp.subset hx))
      fun x hx => ?_) (fun _ h => h) fun r s h => ⟨h.1, h.2.trans hp⟩
    obtain ⟨y, hy, hxy⟩ := List.mem_flatMap.1 hx
    exact hds x (List.mem_flatMap.2 ⟨y, hp.subset hy, hxy⟩)

theorem o_sortLoop {L : List Id} {arr : Ptr} {min aux : Id} {max : Serial} (ha : arr ≠ none) (ha' : ∀ i, arr = some i → i ∈ L) (hmin : min ∈ L) (haux : aux ∈ L)
    (hmax : max.full) (hmax' : ∀ i ∈ max.things, i ∈ L) : ∀ (k i : Nat) (ds : List Delta), i + k ≤ ds.length → (∀ d ∈ ds, d.full) → (∀ i ∈ ds.flatMap Delta.things, i ∈ L) →
    Tri (O L) (sortLoop arr min aux max k i ds) (fun r s => O L s ∧ r.2.Perm ds)
  | 0, _, ds, _, _, _ => Tri.pure fun _ h => ⟨h, List.Perm.refl _⟩
  | k + 1, i, ds, hi, hf, hds => by
    refine Tri.bind o_ask fun a => Tri.bind (o_swapUntilSorted ha ha' hmin haux hmax hmax' a ds (by omega) hf hds) fun r => Tri.pre fun hp => ?_
    refine Tri.ite (fun _ => Tri.pure fun _ h => ⟨h, hp⟩) fun _ => ?_
    refine Tri.weaken (o_sortLoop ha ha' hmin haux hmax hmax' k (i + 1) r.2 (by rw [hp.length_eq]; omega) (fun x hx => hf x (hp.subset hx)) fun x hx => ?_) (fun _ h => h) fun r s h => ⟨h.1, h.2.trans hp⟩
    obtain ⟨y, hy, hxy⟩ := List.mem_flatMap.1 hx
    exact hds x (List.mem_flatMap.2 ⟨y, hp.subset hy, hxy⟩)

theorem o_sortDeltas {L : List Id} {n : Notif} (hn : NOk n) : Tri (O (n.things ++ L)) (sortDeltas n)
    (fun r s => O (r.2.things ++ L) s ∧ NOk r.2 ∧ r.2.session = n.session ∧ r.2.snapshot = n.snapshot) := by
  have hend : ∀ b : Bool, Tri (O (n.things ++ L)) (pure (b, n) : HM (Bool × Notif)) (fun r s => O (r.2.things ++ L) s ∧ NOk r.2 ∧ r.2.session = n.session ∧ r.2.snapshot = n.snapshot) :=
    fun b => Tri.pure fun _ h => ⟨h, hn, rfl, rfl⟩
  refine Tri.ite (fun _ => hend false) fun hne => ?_
  cases hnum : n.session.serial.num with
  | none => exact hend true
  | some num =>
    have hfull : n.session.full := by
      rcases hn.session with h | h
      · rw [h] at hnum; exact absurd hnum (by simp [Session.null, Serial.null])
      · exact h
    have hsess : ∀ x ∈ n.session.things, x ∈ n.things := fun x hx => by simp [Notif.things, hx]
    refine Tri.bind (o_use (List.mem_append_left _ (hsess _ (by simp [Session.things, Serial.things, hnum])))) fun _ => Tri.bind o_create fun min => ?_
    cases min with
    | none => exact hend true
    | some min =>
      have hstr : Tri (O (min :: (n.things ++ L))) (peek n.session.serial.str) (fun _ => O (min :: (n.things ++ L))) :=
        o_peek fun i hi => by
          have := hsess i (by simp [Session.things, Serial.things, hi])
          simp [this]
      refine Tri.bind (o_use (by simp)) fun _ => Tri.bind o_askB fun _ => Tri.ite (fun _ => Tri.bind hstr fun _ => Tri.bind o_free fun _ => hend true) fun _ => ?_
      refine Tri.bind o_askB fun _ => Tri.ite (fun _ => Tri.bind hstr fun _ => Tri.bind o_free fun _ => hend true) fun _ => ?_
      refine Tri.bind o_new fun aux => Tri.bind (o_sortLoop (hn.arr hne) (fun i hi => by simp [Notif.things, hi]) (by simp) (by simp) hfull.2 (fun i hi => ?_) n.deltas.length 0 n.deltas (by omega) hn.deltas fun i hi => ?_) fun r => Tri.pre fun hp => ?_
      · have := hsess i (by simp [Session.things, hi])
        simp [this]
      · have : i ∈ n.things := by
          simp only [Notif.things, List.mem_append]; exact Or.inl (Or.inl (Or.inr hi))
        simp [this]
      refine Tri.bind o_free fun _ => Tri.bind o_free fun _ => Tri.pure fun s h => ⟨h.perm fun i => ?_, ⟨hn.session, hn.snapshot, fun d hd => hn.deltas d (hp.subset hd), fun _ => hn.arr hne⟩, rfl, rfl⟩
      have := count_flatMap_perm hp i
      show (n.things ++ L).count i = (({ n with deltas := r.2 } : Notif).things ++ L).count i
      simp only [Notif.things, List.count_append]; omega

/-! ### The loop -/

theorem o_relaxLoop {σ : Type} {lib : Lib} {cb : σ → Ev → Bool → HM (Bool × Bool × σ)} {L : List Id} (f : σ → List Id) (P : List Ev → Bool → σ → Prop) (E : σ → Prop)
    (hE : ∀ seen sk st, P seen sk st → E st)
    (hskip : ∀ seen e st, P seen true st → P (seen ++ [e]) false st)
    (hcb : ∀ seen e st more, P seen false st → lib.valid (seen ++ [e]) = true → Tri (O (f st ++ L)) (cb st e more) (fun r s => O (f r.2.2 ++ L) s ∧ E r.2.2 ∧ (r.1 = false → P (seen ++ [e]) r.2.1 r.2.2))) :
    ∀ (doc seen : List Ev) (sk : Bool) (st : σ), P seen sk st →
      Tri (O (f st ++ L)) (relaxLoop lib cb seen doc sk st) (fun r s => O (f r.2 ++ L) s ∧ E r.2 ∧ (r.1 = false → ∃ seen' sk', lib.validEnd seen' = true ∧ P seen' sk' r.2))
  | [], seen, sk, st, hP => by
    cases sk <;> exact Tri.bind o_askB fun _ => Tri.ite (fun _ => Tri.pure fun _ h => ⟨h, hE _ _ _ hP, by simp⟩) fun _ => Tri.pure fun _ h => ⟨h, hE _ _ _ hP, fun hv => ⟨seen, _, by simpa using hv, hP⟩⟩
  | e :: es, seen, true, st, hP => o_relaxLoop f P E hE hskip hcb es (seen ++ [e]) false st (hskip _ _ _ hP)
  | e :: es, seen, false, st, hP => by
    refine Tri.ite (fun hv => ?_) fun _ => Tri.pure fun _ h => ⟨h, hE _ _ _ hP, by simp⟩
    refine Tri.bind (hcb _ _ _ _ hP hv) fun r => Tri.pre fun ⟨h1, h2⟩ => Tri.ite (fun _ => Tri.pure fun _ h => ⟨h, h1, by simp⟩) fun hr => ?_
    exact o_relaxLoop f P E hE hskip hcb es (seen ++ [e]) r.2.1 r.2.2 (h2 (by simpa using hr))

theorem o_relaxNgParse {σ : Type} {lib : Lib} {cb : σ → Ev → Bool → HM (Bool × Bool × σ)} {L : List Id} (f : σ → List Id) (P : List Ev → Bool → σ → Prop) (E : σ → Prop)
    (hE : ∀ seen sk st, P seen sk st → E st)
    (hskip : ∀ seen e st, P seen true st → P (seen ++ [e]) false st)
    (hcb : ∀ L seen e st more, P seen false st → lib.valid (seen ++ [e]) = true → Tri (O (f st ++ L)) (cb st e more) (fun r s => O (f r.2.2 ++ L) s ∧ E r.2.2 ∧ (r.1 = false → P (seen ++ [e]) r.2.1 r.2.2)))
    (doc : List Ev) (st : σ) (h0 : P [] false st) :
      Tri (O (f st ++ L)) (relaxNgParse lib cb doc st) (fun r s => O (f r.2 ++ L) s ∧ E r.2 ∧ (r.1 = false → ∃ seen' sk', lib.validEnd seen' = true ∧ P seen' sk' r.2)) := by
  have hend : Tri (O (f st ++ L)) (pure (true, st) : HM (Bool × σ)) (fun r s => O (f r.2 ++ L) s ∧ E r.2 ∧ (r.1 = false → ∃ seen' sk', lib.validEnd seen' = true ∧ P seen' sk' r.2)) :=
    Tri.pure fun _ h => ⟨h, hE _ _ _ h0, by simp⟩
  refine Tri.bind o_create fun reader => ?_
  cases reader with
  | none => exact hend
  | some reader =>
    refine Tri.bind (o_use (by simp)) fun _ => Tri.bind o_askB fun _ => Tri.ite (fun _ => Tri.bind o_free fun _ => hend) fun _ => Tri.bind o_create fun ctx => ?_
    cases ctx with
    | none => exact Tri.bind o_free fun _ => hend
    | some ctx =>
      refine Tri.bind (o_use (by simp)) fun _ => Tri.bind (o_use (by simp)) fun _ => Tri.bind o_askB fun _ => Tri.ite (fun _ => Tri.bind o_free fun _ => Tri.bind o_free fun _ => hend) fun _ => ?_
      refine Tri.bind (o_perm (o_relaxLoop (L := ctx :: reader :: L) f P E hE hskip (hcb _) doc [] false st h0) fun i => ?_) fun r => Tri.pre fun hr => ?_
      · simp only [Option.toList, List.count_append, List.count_cons, List.count_nil]; omega
      refine Tri.bind (o_perm (o_free (L := reader :: (f r.2 ++ L))) fun i => ?_) fun _ => Tri.bind o_free fun _ => Tri.pure fun _ h => ⟨h, hr⟩
      simp only [List.count_append, List.count_cons]; omega

end Verif.Xmem
