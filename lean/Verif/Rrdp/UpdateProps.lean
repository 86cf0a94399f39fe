import Verif.Rrdp.NotifLemmas
/-
C45: what an RRDP update does. The specification is in Spec.lean.
-/
namespace Verif.Rrdp
open Verif.Res (Byte)
open Verif.Uri
open Verif.Cache (Url Cfg Op Cache)

theorem handleDeltaList_ok {env : Env} {tal : List Byte} (hp : Place env tal) {u : Uri} {cage : List Byte}
    (hcage : IsCage env tal u cage) {nf : Notif} {s : Session} (hs : nf.session = some s) :
    ∀ (ds : List Delta) (w w' : World), (∀ x ∈ ds, ∃ g, uriCreate env.repo (some tal) .https none g = .ok x.info.uri) →
    handleDeltaList env tal u nf ds w = (.ok, w') →
    Follows env tal u s.id ds (only cage w.disk) (only cage w'.disk) ∧
      ∀ q, ¬ In cage q → (∀ x ∈ ds, q ≠ x.info.uri.loc) → w'.disk q = w.disk q := by
  intro ds
  induction ds with
  | nil =>
    intro w w' _ h
    simp only [handleDeltaList, Prod.mk.injEq, true_and] at h
    subst h
    exact ⟨.nil _, fun _ _ _ => rfl⟩
  | cons x ds ih =>
    intro w w' hu h
    unfold handleDeltaList at h
    split at h
    · rename_i w1 h1
      unfold handleDelta at h1
      rw [hs] at h1
      obtain ⟨g, hg⟩ := hu x (List.mem_cons_self ..)
      obtain ⟨c, cs, e1, e2, e3, e4⟩ := getAndParse_ok (isDelta := true) hp hcage hg (uriCreate_type hg) h1
      obtain ⟨i1, i2⟩ := ih w1 w' (fun y hy => hu y (List.mem_cons_of_mem _ hy)) h
      refine ⟨.cons x ds _ _ _ c cs e1 e2 e3 i1, fun q hq hq' => ?_⟩
      rw [i2 q hq (fun y hy => hq' y (List.mem_cons_of_mem _ hy)), e4 q hq (hq' x (List.mem_cons_self ..))]
    · rename_i hno
      exact absurd h (hno w')

theorem serials_drop (lo n k : Nat) (hk : k ≤ n) : (serials lo n).drop (n - k) = serials (lo + n - k) k := by
  apply List.ext_getElem
  · simp [serials]; omega
  · intro i h1 h2
    simp [serials]
    simp [serials] at h2
    omega

theorem handleDeltas_ok {env : Env} {tal : List Byte} (hp : Place env tal) {u : Uri} {cage : List Byte}
    (hcage : IsCage env tal u cage) {nf : Notif} {s : Session} (hs : nf.session = some s) (hu : Https env tal nf)
    (hlen : nf.deltas.length ≤ s.serial + 1)
    (hser : nf.deltas.map Delta.serial = serials (s.serial + 1 - nf.deltas.length) nf.deltas.length)
    {w w' : World} {o : Nat} (h : handleDeltas env tal w u nf o = (.ok, w')) :
    o ≤ s.serial ∧ s.serial - o ≤ 64 ∧ ∃ ds, ds <:+ nf.deltas ∧ ds.map Delta.serial = serials (o + 1) (s.serial - o) ∧
      Follows env tal u s.id ds (only cage w.disk) (only cage w'.disk) ∧
      ∀ q, ¬ In cage q → (∀ x ∈ nf.deltas, q ≠ x.info.uri.loc) → w'.disk q = w.disk q := by
  unfold handleDeltas at h
  split at h
  · simp at h
  · rw [hs] at h
    simp only at h
    split at h
    · simp at h
    · rename_i hle
      split at h
      · simp at h
      · rename_i hd
        have hle : o ≤ s.serial := by omega
        have hw : bnGetWord (s.serial - o) = s.serial - o := by
          unfold bnGetWord at hd ⊢
          split at hd
          · rename_i h64; rw [if_pos h64]
          · exfalso; omega
        rw [hw] at hd h
        obtain ⟨i1, i2⟩ := handleDeltaList_ok hp hcage hs _ _ _ (fun x hx => hu.2 x (List.mem_of_mem_drop hx)) h
        refine ⟨hle, by omega, _, List.drop_suffix _ _, ?_, i1, fun q hq hq' => i2 q hq (fun x hx => hq' x (List.mem_of_mem_drop hx))⟩
        rw [List.map_drop, hser, serials_drop _ _ _ (by omega)]
        congr 1
        omega

theorem handleSnapshot_ok {env : Env} {tal : List Byte} (hp : Place env tal) {u : Uri} {cage : List Byte}
    (hcage : IsCage env tal u cage) {nf : Notif} {s : Session} (hs : nf.session = some s) (hu : Https env tal nf)
    {w w' : World} (h : handleSnapshot env tal w u nf = (.ok, w')) :
    ∃ m c cs, nf.snapshot = some m ∧ env.sha c = m.hash.getD [] ∧ Lists env tal u false s (env.xml c).nodes cs ∧
      Applies env.sha (fun _ => none) cs (only cage w'.disk) ∧
      ∀ q, ¬ In cage q → q ≠ m.uri.loc → w'.disk q = w.disk q := by
  obtain ⟨pb, hpb, rfl⟩ := isCage_iff.1 hcage
  unfold handleSnapshot deleteRpp at h
  rw [hpb] at h
  simp only at h
  split at h
  · simp at h
  · rename_i m hm
    rw [hs] at h
    obtain ⟨g, hg⟩ := hu.1 m hm
    obtain ⟨c, cs, e1, e2, e3, e4⟩ := getAndParse_ok (isDelta := false) hp hcage hg (uriCreate_type hg) h
    refine ⟨m, c, cs, hm, e1, e2, ?_, fun q hq hq' => ?_⟩
    · have : only pb.str (fun q => if (decide (q = pb.str) || (pb.str ++ [slash]).isPrefixOf q) then none else w.disk q)
          = fun _ => none := by
        funext q
        unfold only
        split
        · rename_i hin
          rcases hin with rfl | hin
          · simp
          · exact if_pos (by simp [hin])
        · rfl
      simp only at e3
      rw [this] at e3
      exact e3
    · rw [e4 q hq hq']
      simp only
      rw [if_neg]
      simp only [Bool.or_eq_true, decide_eq_true_eq, List.isPrefixOf_iff_prefix]
      exact hq

/-- Deltas of an honest server, from one of its serials on. -/
theorem follows_honest {env : Env} {tal : List Byte} {u : Uri} {nf : Notif} {s : Session} {files : Nat → Disk}
    (hh : Honest env tal u nf s files) : ∀ (ds : List Delta) (o k : Nat) (d d' : Disk), (∀ x ∈ ds, x ∈ nf.deltas) →
    ds.map Delta.serial = serials (o + 1) k → Follows env tal u s.id ds d d' → d = files o → d' = files (o + k) := by
  intro ds
  induction ds with
  | nil =>
    intro o k d d' _ hk h hd
    cases h
    have : k = 0 := by
      have := congrArg List.length hk
      simp [serials] at this; omega
    subst this
    exact hd
  | cons x ds ih =>
    intro o k d d' hin hk h hd
    cases k with
    | zero => simp [serials] at hk
    | succ k =>
      have hcons : serials (o + 1) (k + 1) = (o + 1) :: serials (o + 1 + 1) k := by
        unfold serials
        rw [List.range_succ_eq_map]
        simp only [List.map_cons, List.map_map, Nat.add_zero, List.cons.injEq, true_and]
        apply List.map_congr_left
        intro a _
        simp only [Function.comp_apply]; omega
      rw [List.map_cons, hcons, List.cons.injEq] at hk
      cases h with
      | cons _ _ _ d1 _ c cs hc hl ha r =>
        have h1 := hh.2 x (hin x (List.mem_cons_self ..)) c cs d1 hc hl
        have hx : x.serial - 1 = o := by omega
        rw [hx, ← hd] at h1
        have h1 := h1 ha
        rw [hk.1] at h1
        have := ih (o + 1) k d1 d' (fun y hy => hin y (List.mem_cons_of_mem _ hy)) hk.2 r h1
        rw [this]
        congr 1; omega

/-- The notification that is there, when there is one. -/
def LocalSession (env : Env) (tal : List Byte) (disk : Disk) (u : Uri) : Option Session → Prop
  | none => disk u.loc = none ∨ ∃ nf, parseNotification env tal disk u = (.ok, nf) ∧ nf.session = none
  | some o => disk u.loc ≠ none ∧ ∃ nf, parseNotification env tal disk u = (.ok, nf) ∧ nf.session = some o

theorem getMetadata_ok {env : Env} {tal : List Byte} {disk : Disk} {u : Uri} {old : Option Session}
    (h : getMetadata env tal disk u = (.ok, old)) : LocalSession env tal disk u old := by
  unfold getMetadata at h
  split at h
  · simp at h
  · split at h
    · rename_i hn
      simp only [Prod.mk.injEq, true_and] at h
      subst h
      exact .inl hn
    · rename_i hn
      split at h
      · rename_i nf hnf
        simp only [Prod.mk.injEq, true_and] at h
        subst h
        cases hs : nf.session with
        | none => exact .inr ⟨nf, hnf, hs⟩
        | some o => exact ⟨hn, nf, hnf, hs⟩
      · rename_i hno _
        simp only [Prod.mk.injEq] at h
        exact absurd h.1 hno

/-- Only in the repository's directory, and at these places. -/
def Within (cage : List Byte) (A : List Byte → Prop) (d d' : Disk) : Prop := ∀ q, ¬ In cage q → ¬ A q → d' q = d q

theorem Within.refl {cage : List Byte} {A : List Byte → Prop} (d : Disk) : Within cage A d d := fun _ _ _ => rfl

theorem Within.trans {cage : List Byte} {A : List Byte → Prop} {a b c : Disk} (h1 : Within cage A a b) (h2 : Within cage A b c) :
    Within cage A a c := fun q hq ha => (h2 q hq ha).trans (h1 q hq ha)

theorem Within.mono {cage : List Byte} {A B : List Byte → Prop} {a b : Disk} (h : Within cage A a b) (hAB : ∀ q, A q → B q) :
    Within cage B a b := fun q hq hb => h q hq (fun ha => hb (hAB q ha))

theorem within_set {cage p : List Byte} (h : In cage p) (A : List Byte → Prop) (d : Disk) (v : Option (List Byte)) :
    Within cage A d (d.set p v) := by
  intro q hq _
  unfold Disk.set
  rw [if_neg (fun (e : q = p) => hq (e ▸ h))]

theorem readLoop_within {cage : List Byte} {A : List Byte → Prop} {cb : Disk → XNode → List XNode → Out × Bool × Disk}
    (hcb : ∀ d n r, Within cage A d (cb d n r).2.2) (e : Bool) :
    ∀ (k : Nat) (nodes : List XNode) (d : Disk), nodes.length ≤ k → Within cage A d (readLoop cb e nodes d).2 := by
  intro k
  induction k with
  | zero =>
    intro nodes d hk
    have : nodes = [] := List.length_eq_zero_iff.1 (by omega)
    subst this
    unfold readLoop
    exact .refl _
  | succ k ih =>
    intro nodes d hk
    cases nodes with
    | nil => unfold readLoop; exact .refl _
    | cons n rest =>
      simp only [List.length_cons] at hk
      unfold readLoop
      split
      · exact .refl _
      · have h1 := hcb d n rest
        split
        · rename_i more s hc
          rw [hc] at h1
          refine h1.trans (ih _ _ ?_)
          split
          · simp; omega
          · omega
        · rename_i s _ hc
          rw [hc] at h1
          exact h1

theorem handlePublish_within {env : Env} {tal : List Byte} (hp : Place env tal) {u : Uri} {cage : List Byte}
    (hcage : IsCage env tal u cage) (A : List Byte → Prop) (d : Disk) (n : XNode) (r : List XNode) (hr : HashReq) :
    Within cage A d (handlePublish env tal d n r u hr).2.2 := by
  unfold handlePublish
  split
  · rename_i more m c hpp
    have hin : In cage m.uri.loc := by
      unfold parsePublish at hpp
      split at hpp
      · rename_i m' hm
        obtain ⟨m2, s, e1, e2, e3, -⟩ := parseFileMetadata_ok hm
        cases e1
        have : m = m' := by
          split at hpp
          · simp at hpp
          · split at hpp
            · simp at hpp
            · split at hpp
              · simp at hpp
              · split at hpp
                · split at hpp
                  · simp only [Prod.mk.injEq, Option.some.injEq] at hpp; exact hpp.2.2.1.symm
                  · simp at hpp
                · simp only [Prod.mk.injEq, Option.some.injEq] at hpp; exact hpp.2.2.1.symm
        subst this
        exact pathAttr_in hp hcage ⟨s, m.uri, e2, e3, rfl⟩
      · simp at hpp
      · simp at hpp
    simp only
    unfold writeFile
    split
    · exact within_set hin A d _
    · exact within_set hin A d _
  · exact .refl _
  · exact .refl _

theorem handleWithdraw_within {env : Env} {tal : List Byte} (hp : Place env tal) {u : Uri} {cage : List Byte}
    (hcage : IsCage env tal u cage) (A : List Byte → Prop) (d : Disk) (n : XNode) :
    Within cage A d (handleWithdraw env tal d n u).2 := by
  unfold handleWithdraw
  split
  · rename_i m hpp
    have hin : In cage m.uri.loc := by
      unfold parseWithdraw at hpp
      split at hpp
      · rename_i m' hm
        obtain ⟨m2, s, e1, e2, e3, -⟩ := parseFileMetadata_ok hm
        cases e1
        simp only [Prod.mk.injEq, Option.some.injEq] at hpp
        obtain ⟨-, rfl⟩ := hpp
        exact pathAttr_in hp hcage ⟨s, m'.uri, e2, e3, rfl⟩
      · simp at hpp
      · simp at hpp
    unfold deleteFile
    split
    · exact .refl _
    · exact within_set hin A d _
  · exact .refl _
  · exact .refl _

theorem getAndParse_within {env : Env} {w : World} {m : Meta} {cage : List Byte} {A : List Byte → Prop}
    {cb : Disk → XNode → List XNode → Out × Bool × Disk} (hty : m.uri.type = .https) (hA : A m.uri.loc)
    (hcb : ∀ d n r, Within cage A d (cb d n r).2.2) :
    Within cage A w.disk (getAndParse env w m cb).2.disk ∧ (getAndParse env w m cb).2.cache.tal = w.cache.tal := by
  unfold getAndParse
  split
  · exact ⟨.refl _, rfl⟩
  · rename_i e ch w1 hget
    have hne : (⟨m.uri, false⟩ : Url).uri.type ≠ .rsync := by simp [hty]
    have hel : Within cage A w.disk w1.disk := fun q _ hq => cacheGet_else hne hget q (fun e => hq (e ▸ hA))
    have htal := (cacheGet_spec hne hget).1
    split
    · exact ⟨hel, htal⟩
    · refine ⟨?_, htal⟩
      simp only
      have h2 : Within cage A w1.disk (parseFile env w1.disk m cb).2 := by
        unfold parseFile
        split
        · split
          · exact .refl _
          · unfold relaxNgParse
            split
            · exact readLoop_within hcb _ _ _ _ (Nat.le_refl _)
            · exact .refl _
        · exact .refl _
      exact hel.trans (h2.trans (fun q _ hq => deleteFile_else env _ _ q (fun e => hq (e ▸ hA))))

theorem xmlReadDelta_within {env : Env} {tal : List Byte} (hp : Place env tal) {u : Uri} {cage : List Byte}
    (hcage : IsCage env tal u cage) (A : List Byte → Prop) (s : Option Session) (d : Disk) (n : XNode) (r : List XNode) :
    Within cage A d (xmlReadDelta env tal u s d n r).2.2 := by
  unfold xmlReadDelta
  split
  · split
    · exact handlePublish_within hp hcage A d n r _
    · split
      · exact handleWithdraw_within hp hcage A d n
      · split <;> exact .refl _
  · exact .refl _

theorem xmlReadSnapshot_within {env : Env} {tal : List Byte} (hp : Place env tal) {u : Uri} {cage : List Byte}
    (hcage : IsCage env tal u cage) (A : List Byte → Prop) (s : Option Session) (d : Disk) (n : XNode) (r : List XNode) :
    Within cage A d (xmlReadSnapshot env tal u s d n r).2.2 := by
  unfold xmlReadSnapshot
  split
  · split
    · exact handlePublish_within hp hcage A d n r _
    · split <;> exact .refl _
  · exact .refl _

theorem handleDeltaList_within {env : Env} {tal : List Byte} (hp : Place env tal) {u : Uri} {cage : List Byte}
    (hcage : IsCage env tal u cage) (nf : Notif) {A : List Byte → Prop} :
    ∀ (ds : List Delta) (w : World), (∀ x ∈ ds, x.info.uri.type = .https ∧ A x.info.uri.loc) →
    Within cage A w.disk (handleDeltaList env tal u nf ds w).2.disk := by
  intro ds
  induction ds with
  | nil => intro w _; exact .refl _
  | cons x ds ih =>
    intro w hx
    obtain ⟨h1, h2⟩ := hx x (List.mem_cons_self ..)
    have h := (getAndParse_within (env := env) (w := w) h1 h2
      (xmlReadDelta_within hp hcage A (nf.session.map (fun s => ⟨s.id, x.serial⟩)))).1
    unfold handleDeltaList handleDelta
    split
    · rename_i w1 e
      rw [e] at h
      exact h.trans (ih w1 (fun y hy => hx y (List.mem_cons_of_mem _ hy)))
    · exact h

theorem handleDeltas_within {env : Env} {tal : List Byte} (hp : Place env tal) {u : Uri} {cage : List Byte}
    (hcage : IsCage env tal u cage) (nf : Notif) {A : List Byte → Prop} (w : World) (o : Nat)
    (hx : ∀ x ∈ nf.deltas, x.info.uri.type = .https ∧ A x.info.uri.loc) :
    Within cage A w.disk (handleDeltas env tal w u nf o).2.disk := by
  unfold handleDeltas
  split
  · exact .refl _
  · split
    · exact .refl _
    · simp only
      split
      · exact .refl _
      · split
        · exact .refl _
        · exact handleDeltaList_within hp hcage nf _ _ (fun x h => hx x (List.mem_of_mem_drop h))

theorem handleSnapshot_within {env : Env} {tal : List Byte} (hp : Place env tal) {u : Uri} {cage : List Byte}
    (hcage : IsCage env tal u cage) (nf : Notif) {A : List Byte → Prop} (w : World)
    (hx : ∀ m, nf.snapshot = some m → m.uri.type = .https ∧ A m.uri.loc) :
    Within cage A w.disk (handleSnapshot env tal w u nf).2.disk := by
  obtain ⟨pb, hpb, rfl⟩ := isCage_iff.1 hcage
  unfold handleSnapshot deleteRpp
  rw [hpb]
  simp only
  split
  · exact .refl _
  · rename_i m hm
    obtain ⟨h1, h2⟩ := hx m hm
    refine Within.trans (b := fun q => if (decide (q = pb.str) || (pb.str ++ [slash]).isPrefixOf q) then none else w.disk q) ?_
      (getAndParse_within (env := env) h1 h2 (xmlReadSnapshot_within hp hcage A nf.session)).1
    intro q hq _
    simp only
    rw [if_neg]
    simp only [Bool.or_eq_true, decide_eq_true_eq, List.isPrefixOf_iff_prefix]
    exact hq

/-- Why deltas cannot be used: there are none, the serial went back, too many are missing, not all of those that are missing are
listed, or one of the missing ones could not be downloaded or followed. -/
def DeltasFail (env : Env) (tal : List Byte) (u : Uri) (nf : Notif) (s : Session) (o : Nat) (d1 : Disk) : Prop :=
  nf.deltas = [] ∨ s.serial < o ∨ 64 < s.serial - o ∨ nf.deltas.length < s.serial - o ∨
  ∃ (pre : List Delta) (x : Delta) (post : List Delta) (w1 w2 w3 : World), (pre ++ x :: post) <:+ nf.deltas ∧
    ((pre ++ x :: post).map Delta.serial = serials (o + 1) (s.serial - o)) ∧ w1.disk = d1 ∧
    handleDeltaList env tal u nf pre w1 = (.ok, w2) ∧ handleDelta env tal w2 u nf x = (.err, w3)

theorem handleDeltaList_err {env : Env} {tal : List Byte} {u : Uri} {nf : Notif} : ∀ (ds : List Delta) (w w' : World),
    handleDeltaList env tal u nf ds w = (.err, w') → ∃ pre x post w2 w3, ds = pre ++ x :: post ∧
      handleDeltaList env tal u nf pre w = (.ok, w2) ∧ handleDelta env tal w2 u nf x = (.err, w3) := by
  intro ds
  induction ds with
  | nil => intro w w' h; simp [handleDeltaList] at h
  | cons x ds ih =>
    intro w w' h
    unfold handleDeltaList at h
    split at h
    · rename_i w1 h1
      obtain ⟨pre, y, post, w2, w3, rfl, h2, h3⟩ := ih w1 w' h
      exact ⟨x :: pre, y, post, w2, w3, rfl, by unfold handleDeltaList; rw [h1]; exact h2, h3⟩
    · exact ⟨[], x, ds, w, w', rfl, rfl, h⟩

theorem handleDeltas_err {env : Env} {tal : List Byte} {u : Uri} {nf : Notif} {s : Session} (hs : nf.session = some s)
    (hlen : nf.deltas.length ≤ s.serial + 1)
    (hser : nf.deltas.map Delta.serial = serials (s.serial + 1 - nf.deltas.length) nf.deltas.length)
    {w w' : World} {o : Nat} (h : handleDeltas env tal w u nf o = (.err, w')) : DeltasFail env tal u nf s o w.disk := by
  unfold handleDeltas at h
  split at h
  · rename_i h0; exact .inl (List.length_eq_zero_iff.1 h0)
  · rw [hs] at h
    simp only at h
    split at h
    · rename_i hlt; exact .inr (.inl hlt)
    · split at h
      · rename_i hd
        unfold bnGetWord at hd
        split at hd
        · rcases hd with hd | hd
          · exact .inr (.inr (.inl hd))
          · exact .inr (.inr (.inr (.inl hd)))
        · exact .inr (.inr (.inl (by omega)))
      · rename_i hd
        have hw : bnGetWord (s.serial - o) = s.serial - o := by
          unfold bnGetWord at hd ⊢
          split at hd
          · rename_i h64; rw [if_pos h64]
          · exfalso; omega
        rw [hw] at hd h
        obtain ⟨pre, x, post, w2, w3, e, h1, h2⟩ := handleDeltaList_err _ _ _ h
        refine .inr (.inr (.inr (.inr ⟨pre, x, post, w, w2, w3, ?_, ?_, rfl, h1, h2⟩)))
        · rw [← e]; exact List.drop_suffix _ _
        · rw [← e, List.map_drop, hser, serials_drop _ _ _ (by omega)]
          congr 1
          omega

/-- **C45, what is done.** A successful update either finds nothing newer, and then no file changes; or it gets a new notification
(with session `s`), and then one of these is true: the session and serial are those of the old notification, and nothing else
changes; the session is the same, and the deltas from the old serial on (excluded) to the new one (included), at most 64, were
followed, in ascending order; or the old files were removed and the snapshot was followed, and that
only if the session is new or the deltas cannot be used. Besides files of the repository,
only the notification and the downloaded documents change. -/
theorem C45_steps {env : Env} {w w' : World} {u : Uri} {g cage : List Byte} (hp : Place env w.cache.tal)
    (hu : uriCreate env.repo (some w.cache.tal) .https none g = .ok u) (hcage : IsCage env w.cache.tal u cage)
    (hschema : ∀ d c nf, d u.loc = some c → parseNotification env w.cache.tal d u = (.ok, nf) → SchemaOk (env.xml c))
    (h : rrdpUpdate env w u = (.ok, w')) :
    ∃ old, LocalSession env w.cache.tal w.disk u old ∧
    ((w'.disk = w.disk) ∨
     ∃ (c : List Byte) (nf : Notif) (s : Session) (d1 : Disk), d1 = w.disk.set u.loc (some c) ∧
      (∃ url : Url, url.uri.loc = u.loc ∧ (url = ⟨u, true⟩ ∨ ∃ n ∈ w.cache.nodes, n.url = url) ∧ c = (env.http w.tick url).body) ∧
      parseNotification env w.cache.tal d1 u = (.ok, nf) ∧ nf.session = some s ∧
      ((old = some s ∧ w'.disk = d1) ∨
       (∃ o ds, old = some ⟨s.id, o⟩ ∧ o < s.serial ∧ s.serial - o ≤ 64 ∧ ds <:+ nf.deltas ∧
          ds.map Delta.serial = serials (o + 1) (s.serial - o) ∧
          Follows env w.cache.tal u s.id ds (only cage w.disk) (only cage w'.disk)) ∨
       (∃ m c cs, nf.snapshot = some m ∧ env.sha c = m.hash.getD [] ∧ Lists env w.cache.tal u false s (env.xml c).nodes cs ∧
          Applies env.sha (fun _ => none) cs (only cage w'.disk) ∧
          ∀ o, old = some ⟨s.id, o⟩ → o ≠ s.serial ∧ DeltasFail env w.cache.tal u nf s o d1)) ∧
      ∀ q, ¬ In cage q → ¬ ListedAt nf q → w'.disk q = d1 q) := by
  unfold rrdpUpdate at h
  simp only at h
  split at h
  · rename_i old hold
    refine ⟨old, getMetadata_ok hold, ?_⟩
    split at h
    · simp at h
    · rename_i e ch w1 hget
      have hty : (⟨u, true⟩ : Url).uri.type ≠ .rsync := by simp [uriCreate_type hu]
      obtain ⟨htal, -, hsame, hnew⟩ := cacheGet_spec hty hget
      split at h
      · simp at h
      · split at h
        · rename_i hch
          simp only [Prod.mk.injEq, true_and] at h
          subst h
          exact .inl (hsame hch)
        · rename_i hch
          right
          obtain ⟨-, url, hloc, hurl, -, -, hd⟩ := hnew (by simpa using hch)
          have hat : w1.disk u.loc = some (env.http w.tick url).body := by rw [hd]; simp [Disk.set]
          split at h
          · rename_i nf hnf
            obtain ⟨s, hs, hh, hlen, -, hser⟩ := parseNotification_ok hat (hschema _ _ _ hat hnf) hnf
            refine ⟨_, nf, s, w1.disk, hd, ⟨url, hloc, hurl, rfl⟩, hnf, hs, ?_⟩
            have honly : only cage w1.disk = only cage w.disk :=
              only_congr (fun q hq => by
                rw [hd]; unfold Disk.set
                exact if_neg (fun (e : q = u.loc) => https_not_in hp hcage hu (e ▸ hq)))
            have hls : ∀ m, nf.snapshot = some m → m.uri.type = .https ∧ ListedAt nf m.uri.loc := fun m hm => by
              obtain ⟨g, hg⟩ := hh.1 m hm
              exact ⟨uriCreate_type hg, .inl ⟨m, hm, rfl⟩⟩
            have hld : ∀ x ∈ nf.deltas, x.info.uri.type = .https ∧ ListedAt nf x.info.uri.loc := fun x hx => by
              obtain ⟨g, hg⟩ := hh.2 x hx
              exact ⟨uriCreate_type hg, .inr ⟨x, hx, rfl⟩⟩
            have snap : ∀ w2 w', (∀ o, old = some ⟨s.id, o⟩ → o ≠ s.serial ∧ DeltasFail env w.cache.tal u nf s o w1.disk) →
                Within cage (ListedAt nf) w1.disk w2.disk → handleSnapshot env w.cache.tal w2 u nf = (.ok, w') →
                ((∃ m c cs, nf.snapshot = some m ∧ env.sha c = m.hash.getD [] ∧
                  Lists env w.cache.tal u false s (env.xml c).nodes cs ∧
                  Applies env.sha (fun _ => none) cs (only cage w'.disk) ∧
                  ∀ o, old = some ⟨s.id, o⟩ → o ≠ s.serial ∧ DeltasFail env w.cache.tal u nf s o w1.disk)) ∧
                ∀ q, ¬ In cage q → ¬ ListedAt nf q → w'.disk q = w1.disk q := by
              intro w2 w' hwhy hw2 h
              obtain ⟨m, c, cs, a1, a2, a3, a4, -⟩ := handleSnapshot_ok hp hcage hs hh h
              have hwin := handleSnapshot_within hp hcage nf (A := ListedAt nf) (env := env) w2 hls
              rw [h] at hwin
              exact ⟨⟨m, c, cs, a1, a2, a3, a4, hwhy⟩, hw2.trans hwin⟩
            split at h
            · obtain ⟨k1, k2⟩ := snap w1 w' (fun o ho => by cases ho) (.refl _) h
              exact ⟨.inr (.inr k1), k2⟩
            · rename_i o
              split at h
              · rename_i hid
                obtain ⟨k1, k2⟩ := snap w1 w' (fun o' ho => by
                  cases ho
                  rw [hs] at hid
                  exact absurd rfl hid) (.refl _) h
                exact ⟨.inr (.inr k1), k2⟩
              · rename_i hid
                rw [hs] at hid h
                simp only [Option.map_some, ne_eq, Option.some.injEq, Classical.not_not] at hid
                simp only [Option.map_some, ne_eq, Option.some.injEq] at h
                split at h
                · rename_i hne
                  split at h
                  · rename_i w2 hdel
                    simp only [Prod.mk.injEq, true_and] at h
                    subst h
                    obtain ⟨b1, b2, ds, b3, b4, b5, -⟩ := handleDeltas_ok hp hcage hs hh hlen hser hdel
                    have hwin := handleDeltas_within hp hcage nf (A := ListedAt nf) (env := env) w1 o.serial hld
                    rw [hdel] at hwin
                    rw [honly] at b5
                    refine ⟨.inr (.inl ⟨o.serial, ds, ?_, by omega, b2, b3, b4, b5⟩), hwin⟩
                    cases o; cases s; simp_all
                  · simp at h
                  · rename_i w2 hdel
                    have hwin := handleDeltas_within hp hcage nf (A := ListedAt nf) (env := env) w1 o.serial hld
                    rw [hdel] at hwin
                    obtain ⟨k1, k2⟩ := snap w2 w' (fun o' ho => by
                      cases ho
                      exact ⟨fun e => hne e.symm, handleDeltas_err hs hlen hser hdel⟩) hwin h
                    exact ⟨.inr (.inr k1), k2⟩
                · rename_i hne
                  simp only [Prod.mk.injEq, true_and] at h
                  subst h
                  refine ⟨.inl ⟨?_, rfl⟩, fun _ _ _ => rfl⟩
                  cases o; cases s; simp_all
          · rename_i hno _
            simp only [Prod.mk.injEq] at h
            exact absurd h.1 hno
  · rename_i hno _
    simp only [Prod.mk.injEq] at h
    exact absurd h.1 hno

end Verif.Rrdp
