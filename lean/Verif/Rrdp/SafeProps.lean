import Verif.Rrdp.RetryProps
/-
C83: RRDP documents do not make the validator crash, as long as the XML library enforces the schema.
-/
namespace Verif.Rrdp
open Verif.Res (Byte)
open Verif.Uri
open Verif.Cache (Url Cfg Op Cache)

/-- What the schema says about single nodes: version numbers are numbers that a machine word has room for (they are "1"). -/
def NodeOk (n : XNode) : Prop := n.valid = true → ∀ s, n.attr "version" = some s → (Verif.Misc.strtoul s).erange = false

theorem parseSession_safe {n : XNode} (hn : NodeOk n) (hv : n.valid = true) : (parseSession n).1 ≠ .crash := by
  unfold parseSession validateVersion parseUlong
  split
  · simp
  · cases h : n.attr "version" with
    | none => simp
    | some s =>
      simp only [hn hv s h, Bool.false_eq_true, if_false]
      by_cases h1 : (Verif.Misc.strtoul s).value ≠ 1
      · simp [h1]
      · simp only [h1, if_false]
        cases n.attr "session_id" with
        | none => simp
        | some id => cases parseSerial n <;> simp

theorem validateSession_safe {n : XNode} (hn : NodeOk n) (hv : n.valid = true) (s : Option Session) :
    validateSession n s ≠ .crash := by
  have h := parseSession_safe hn hv
  unfold validateSession
  rcases hp : parseSession n with ⟨r, a⟩
  rw [hp] at h
  cases r with
  | ok =>
    obtain ⟨a', rfl, -⟩ := parseSession_ok hp
    simp only
    cases s with
    | none => simp
    | some e => simp only; split <;> simp; split <;> simp
  | err => simp
  | crash => exact absurd rfl h

theorem parseHash_safe (n : XNode) (hr : HashReq) : (parseHash n hr).1 ≠ .crash := by
  unfold parseHash
  split
  · simp
  · split
    · simp only; split <;> simp
    · rename_i s hs
      split
      · simp
      · simp
      · rename_i h; exact absurd h (C47_total s)

theorem uriCreate_safe {env : Env} {tal : List Byte} (hp : Place env tal) (k : UriType) (notif : Option Uri)
    (hn : k = .caged → notif ≠ none) (g : List Byte) : uriCreate env.repo (some tal) k notif g ≠ .crash := by
  rcases C37_mapping hp.hrepo hp.htal k notif hn g with ⟨l, -, -, h⟩ | ⟨e, -, h, -⟩ | ⟨-, h⟩ <;> rw [h] <;> simp

theorem parseFileMetadata_safe {env : Env} {tal : List Byte} (hp : Place env tal) (n : XNode) (notif : Option Uri) (hr : HashReq) :
    (parseFileMetadata env tal n notif hr).1 ≠ .crash := by
  unfold parseFileMetadata
  split
  · simp
  · split
    · rename_i h
      refine absurd h (uriCreate_safe hp _ _ ?_ _)
      intro hc hn
      rw [hn] at hc
      simp at hc
    · simp
    · have := parseHash_safe n hr
      split
      · simp
      · rename_i h
        rw [h] at this
        exact this

theorem handlePublish_safe {env : Env} {tal : List Byte} (hp : Place env tal) (d : Disk) (n : XNode) (r : List XNode) (u : Uri)
    (hr : HashReq) : (handlePublish env tal d n r u hr).1 ≠ .crash := by
  have hv : ∀ m, validateHash env d m ≠ .crash := by
    intro m; unfold validateHash
    split
    · simp
    · split <;> simp
  have hparse : (parsePublish env tal d n r u hr).1 ≠ .crash ∧
      ∀ more, parsePublish env tal d n r u hr ≠ (.ok, more, none) := by
    have hm := parseFileMetadata_safe hp n (some u) hr
    unfold parsePublish
    split
    · split
      · simp
      · split
        · simp
        · split
          · simp
          · split
            · rename_i m _ _ _ _ _ _ _ _ _ _ _
              split
              · simp
              · rename_i hno
                refine ⟨hv _, fun more h => ?_⟩
                simp only [Prod.mk.injEq] at h
                exact hno h.1
            · simp
    · rename_i h; exact absurd h parseFileMetadata_no
    · rename_i snd hno1 hno2 h
      rw [h] at hm
      refine ⟨hm, fun more h' => ?_⟩
      simp only [Prod.mk.injEq] at h'
      cases snd with
      | none => exact hno2 h'.1 rfl
      | some m => exact hno1 m h'.1 rfl
  unfold handlePublish
  split
  · simp only; unfold writeFile; split <;> simp
  · rename_i h; exact absurd h (hparse.2 _)
  · rename_i h
    have := hparse.1
    rw [h] at this
    exact this

theorem handleWithdraw_safe {env : Env} {tal : List Byte} (hp : Place env tal) (d : Disk) (n : XNode) (u : Uri) :
    (handleWithdraw env tal d n u).1 ≠ .crash := by
  have hv : ∀ m, validateHash env d m ≠ .crash := by
    intro m; unfold validateHash
    split
    · simp
    · split <;> simp
  have hparse : (parseWithdraw env tal d n u).1 ≠ .crash ∧ parseWithdraw env tal d n u ≠ (.ok, none) := by
    have hm := parseFileMetadata_safe hp n (some u) .mandatory
    unfold parseWithdraw
    split
    · exact ⟨hv _, by simp⟩
    · rename_i h; exact absurd h parseFileMetadata_no
    · rename_i snd hno1 hno2 h
      rw [h] at hm
      refine ⟨hm, fun h' => ?_⟩
      simp only [Prod.mk.injEq] at h'
      cases snd with
      | none => exact hno2 h'.1 rfl
      | some m => exact hno1 m h'.1 rfl
  unfold handleWithdraw
  split
  · unfold deleteFile
    split
    · simp
    · simp only; split <;> simp
  · rename_i h; exact absurd h hparse.2
  · rename_i h
    have := hparse.1
    rw [h] at this
    exact this

theorem readLoop_safe {S : Type} {cb : S → XNode → List XNode → Out × Bool × S} (I : Nat → S → Prop)
    (e : Bool) : ∀ (k : Nat) (nodes : List XNode) (s : S), nodes.length ≤ k → I nodes.length s →
    (∀ n ∈ nodes, n.valid = true → ∀ s r, I (r.length + 1) s → (cb s n r).1 ≠ .crash ∧ I r.length (cb s n r).2.2) →
    (∀ k s, I (k + 1) s → I k s) →
    (readLoop cb e nodes s).1 ≠ .crash := by
  intro k
  induction k with
  | zero =>
    intro nodes s hk _ _ _
    have : nodes = [] := List.length_eq_zero_iff.1 (by omega)
    subst this
    unfold readLoop
    simp only; split <;> simp
  | succ k ih =>
    intro nodes s hk hI hcb hmono
    cases nodes with
    | nil => unfold readLoop; simp only; split <;> simp
    | cons n rest =>
      simp only [List.length_cons] at hk hI
      unfold readLoop
      split
      · simp
      · rename_i hv
        obtain ⟨h1, h2⟩ := hcb n (List.mem_cons_self ..) (by simpa using hv) s rest hI
        split
        · rename_i more s' hc
          rw [hc] at h2
          cases more with
          | false =>
            simp only [Bool.false_eq_true, if_false]
            exact ih rest s' (by omega) h2 (fun m hm => hcb m (List.mem_cons_of_mem _ hm)) hmono
          | true =>
            simp only [if_true]
            refine ih rest.tail s' (by simp; omega) ?_ (fun m hm => hcb m (List.mem_cons_of_mem _ (List.mem_of_mem_tail hm))) hmono
            cases rest with
            | nil => exact h2
            | cons m rest => exact hmono _ _ h2
        · rename_i h
          rw [h] at h1
          exact h1

/-- What is assumed of the XML library and the clock: nodes obey the schema (see `NodeOk`), documents fit in memory, accepted
notifications obey the schema, which includes having a snapshot element, and `time` works. -/
structure Trusted (env : Env) (tal : List Byte) (u : Uri) : Prop where
  node : ∀ c, ∀ n ∈ (env.xml c).nodes, NodeOk n
  size : ∀ c, (env.xml c).nodes.length < 2 ^ 64
  schema : ∀ d c nf, d u.loc = some c → parseNotification env tal d u = (.ok, nf) →
    SchemaOk (env.xml c) ∧ ∃ n ∈ (env.xml c).nodes, n.type = .elem ∧ n.name = "snapshot"
  clock : ∀ t url, (env.http t url).now ≠ -1

theorem xmlReadNotif_safe {env : Env} {tal : List Byte} (hp : Place env tal) (nf : Notif) (n : XNode) (r : List XNode)
    (hn : NodeOk n) (hv : n.valid = true) (hI : nf.deltas.length + (r.length + 1) < 2 ^ 64) :
    (xmlReadNotif env tal nf n r).1 ≠ .crash ∧ (xmlReadNotif env tal nf n r).2.2.deltas.length + r.length < 2 ^ 64 := by
  unfold xmlReadNotif
  split
  · split
    · have hm := parseFileMetadata_safe hp n none .mandatory
      simp only
      unfold parseNotificationDelta
      split
      · simp; omega
      · split
        · simp; omega
        · rename_i h; exact absurd h parseFileMetadata_no
        · rename_i h
          rw [h] at hm
          exact ⟨hm, by simp only; omega⟩
    · split
      · exact ⟨parseFileMetadata_safe hp n none .mandatory, by simp only; omega⟩
      · split
        · exact ⟨parseSession_safe hn hv, by simp only; omega⟩
        · simp; omega
  · split
    · cases hs : nf.session.map Session.serial with
      | none =>
        unfold sortDeltas
        split
        · rename_i h; split at h
          · cases h; simp only; exact ⟨by simp, by omega⟩
          · cases h
        · exact ⟨by simp, by simp only; omega⟩
        · rename_i h; split at h <;> cases h
        · rename_i h; split at h <;> cases h
      | some max =>
        rcases C44_contiguous max nf.deltas (by omega) with ⟨-, -, ds, h, hperm, -⟩ | ⟨-, h⟩
        · rw [h]
          refine ⟨by simp, ?_⟩
          simp only
          rw [hperm.length_eq]; omega
        · rw [h]
          exact ⟨by simp, by simp only; omega⟩
    · exact ⟨by simp, by simp only; omega⟩
  · exact ⟨by simp, by simp only; omega⟩

theorem parseNotification_safe {env : Env} {tal : List Byte} (hp : Place env tal) {u : Uri} (ht : Trusted env tal u) (d : Disk) :
    (parseNotification env tal d u).1 ≠ .crash := by
  unfold parseNotification
  split
  · simp
  · rename_i c hc
    unfold relaxNgParse
    split
    · refine readLoop_safe (fun k nf => nf.deltas.length + k < 2 ^ 64) _ _ _ _ (Nat.le_refl _) ?_ ?_ ?_
      · have := ht.size c; simp; omega
      · intro n hn hv nf r hI
        exact xmlReadNotif_safe hp nf n r (ht.node c n hn) hv hI
      · intro k s h; omega
    · simp

theorem steps_snapshot {env : Env} {tal : List Byte} {ns : List XNode} {nf nf' : Notif} (h : Steps (xmlReadNotif env tal) ns nf nf') :
    (nf.snapshot ≠ none ∨ ∃ n ∈ ns, n.type = .elem ∧ n.name = "snapshot") → nf'.snapshot ≠ none := by
  induction h with
  | nil s =>
    rintro (h | ⟨n, hn, -⟩)
    · exact h
    · cases hn
  | cons n ns s s1 s2 rest h r ih =>
    intro hh
    have key : (s.snapshot ≠ none ∨ (n.type = .elem ∧ n.name = "snapshot")) → s1.snapshot ≠ none := by
      intro hh
      unfold xmlReadNotif at h
      split at h
      · rename_i hty
        split at h
        · rename_i hnm
          simp only [Prod.mk.injEq] at h
          obtain ⟨h1, -, h2⟩ := h
          obtain ⟨x, g, e1, -⟩ := parseNotificationDelta_ok (Prod.ext h1 h2)
          subst e1
          rcases hh with hh | ⟨-, hh⟩
          · exact hh
          · rw [hnm] at hh; simp at hh
        · split at h
          · simp only [Prod.mk.injEq] at h
            obtain ⟨h1, -, h2⟩ := h
            obtain ⟨m, g, e1, -⟩ := parseFileMetadata_ok (Prod.ext h1 rfl)
            subst h2
            simp only
            intro h0
            exact absurd (e1.symm.trans h0) (by simp)
          · split at h
            · rename_i hns _
              simp only [Prod.mk.injEq] at h
              obtain ⟨-, -, rfl⟩ := h
              rcases hh with hh | ⟨-, hh⟩
              · exact hh
              · exact absurd hh hns
            · simp at h
      · rename_i hty
        have hs : s.snapshot ≠ none := by
          rcases hh with hh | ⟨hh, -⟩
          · exact hh
          · rw [hty] at hh; cases hh
        split at h
        · split at h
          · simp only [Prod.mk.injEq, true_and] at h
            obtain ⟨-, rfl⟩ := h
            exact hs
          · simp at h
          · simp at h
          · simp at h
        · simp only [Prod.mk.injEq, true_and] at h
          obtain ⟨-, rfl⟩ := h
          exact hs
      · rename_i hty _
        simp only [Prod.mk.injEq, true_and] at h
        obtain ⟨-, rfl⟩ := h
        rcases hh with hh | ⟨hh, -⟩
        · exact hh
        · exact absurd hh hty
    apply ih
    rcases hh with hh | ⟨m, hm, h1, h2⟩
    · exact .inl (key (.inl hh))
    · rcases List.mem_cons.1 hm with rfl | hm
      · exact .inl (key (.inr ⟨h1, h2⟩))
      · exact .inr ⟨m, hm, h1, h2⟩

theorem parseNotification_snapshot {env : Env} {tal : List Byte} {disk : Disk} {u : Uri} {nf : Notif} {c : List Byte}
    (hc : disk u.loc = some c) (hs : ∃ n ∈ (env.xml c).nodes, n.type = .elem ∧ n.name = "snapshot")
    (h : parseNotification env tal disk u = (.ok, nf)) : nf.snapshot ≠ none := by
  unfold parseNotification at h
  rw [hc] at h
  simp only at h
  unfold relaxNgParse at h
  split at h
  · obtain ⟨n1, s1, h⟩ := readLoop_steps (xmlReadNotif_more env tal) _ [] (env.xml c).nodes _ _ (by simpa using h)
    have := steps_snapshot s1 (.inr hs)
    unfold readLoop at h
    simp only [Prod.mk.injEq] at h
    obtain ⟨-, rfl⟩ := h
    exact this
  · simp at h

/-- The cache's table is about URLs of the TAL. -/
def CacheOk (env : Env) (c : Cache) : Prop :=
  ∀ n ∈ c.nodes, ∃ k g, k ≠ .caged ∧ uriCreate env.repo (some c.tal) k none g = .ok n.url.uri

theorem cacheOk_https {env : Env} {c : Cache} (hp : Place env c.tal) (hc : CacheOk env c) {u : Uri} {g : List Byte}
    (hu : uriCreate env.repo (some c.tal) .https none g = .ok u) : ∀ n ∈ c.nodes, n.key = u.loc → n.url.uri.type = .https := by
  intro n hn hk
  obtain ⟨k, g', hk', hg⟩ := hc n hn
  have := (C40_kinds hp.hrepo ⟨hp.htal, hp.hseg⟩ ⟨hp.htal, hp.hseg⟩ (fun h => absurd h hk') (by simp) hg hu hk).2
  rw [uriCreate_type hg, this]

theorem cacheGet_safe {env : Env} {w : World} {u : Url} {g : List Byte} (hp : Place env w.cache.tal) (hc : CacheOk env w.cache)
    (hclock : ∀ t url, (env.http t url).now ≠ -1) (hu : uriCreate env.repo (some w.cache.tal) .https none g = .ok u.uri) :
    ∃ e ch w', cacheGet env w u = some (e, ch, w') ∧ CacheOk env w'.cache ∧ w'.cache.tal = w.cache.tal := by
  have hty := uriCreate_type hu
  have hg : Verif.Cache.getUrl env.repo w.cache.tal u = .ok u := by
    unfold Verif.Cache.getUrl; rw [if_pos (by simp [hty])]
  have key : ∀ (c : Cache) (n : Verif.Cache.Node), n.url.uri.type = .https → n ∈ c.nodes → CacheOk env c →
      ∃ d, Verif.Cache.fetch env.cfg c n (fun op url => match op with
        | .check => ⟨if (w.disk url.uri.loc).isSome then 0 else 2, (env.http w.tick url).now⟩
        | _ => ⟨(env.http w.tick url).result, (env.http w.tick url).now⟩) = some d ∧ CacheOk env d.cache := by
    intro c n hn hmem hok
    have hupd : ∀ n' : Verif.Cache.Node, n'.url = n.url → CacheOk env (Verif.Cache.updateNode c n') := by
      intro n' hn' m hm
      unfold Verif.Cache.updateNode at hm
      simp only [List.mem_map] at hm
      obtain ⟨a, ha, rfl⟩ := hm
      split
      · rw [hn']; exact hok n hmem
      · exact hok a ha
    unfold Verif.Cache.fetch
    rw [hn]
    simp only
    cases env.cfg.httpEnabled <;> simp only [Bool.false_eq_true, if_false, if_true, hclock] <;>
      exact ⟨_, rfl, hupd _ rfl⟩
  have hd : ∃ d, Verif.Cache.cacheDownload env.cfg env.repo w.cache u (fun op url => match op with
        | .check => ⟨if (w.disk url.uri.loc).isSome then 0 else 2, (env.http w.tick url).now⟩
        | _ => ⟨(env.http w.tick url).result, (env.http w.tick url).now⟩) = some d ∧ CacheOk env d.cache := by
    unfold Verif.Cache.cacheDownload
    rw [hg]
    simp only
    split
    · rename_i n hn
      split
      · exact ⟨_, rfl, hc⟩
      · have hm := Verif.Cache.find_mem hn
        exact key _ _ (cacheOk_https hp hc hu n hm (Verif.Cache.find_key hn)) hm hc
    · refine key _ _ hty (by simp [Verif.Cache.addNode]) ?_
      intro n hn
      simp only [Verif.Cache.addNode, List.mem_append, List.mem_singleton] at hn
      rcases hn with hn | rfl
      · exact hc n hn
      · exact ⟨.https, g, by simp, hu⟩
  obtain ⟨d, hd, hok⟩ := hd
  have : ∃ e ch w', cacheGet env w u = some (e, ch, w') ∧ CacheOk env w'.cache := by
    unfold cacheGet
    simp only
    split
    · rename_i hn
      exact absurd (hd.symm.trans hn) (by simp)
    · rename_i d' hn
      have hdd : d = d' := Option.some.inj (hd.symm.trans hn)
      subst hdd
      split
      · exact ⟨_, _, _, rfl, hok⟩
      · exact ⟨_, _, _, rfl, hok⟩
      · exact ⟨_, _, _, rfl, hok⟩
  obtain ⟨e, ch, w', h, h2⟩ := this
  exact ⟨e, ch, w', h, h2, (cacheGet_spec (by simp [hty]) h).1⟩

/-- The cache's invariants, which downloads keep. -/
def WorldOk (env : Env) (tal : List Byte) (w : World) : Prop := w.cache.tal = tal ∧ CacheOk env w.cache

theorem getAndParse_safe {env : Env} {tal : List Byte} (hp : Place env tal) {w : World} (hw : WorldOk env tal w)
    (hclock : ∀ t url, (env.http t url).now ≠ -1) {m : Meta} {g : List Byte}
    (hm : uriCreate env.repo (some tal) .https none g = .ok m.uri) {cb : Disk → XNode → List XNode → Out × Bool × Disk}
    (hnode : ∀ c, ∀ n ∈ (env.xml c).nodes, NodeOk n)
    (hcb : ∀ d n r, NodeOk n → n.valid = true → (cb d n r).1 ≠ .crash) :
    (getAndParse env w m cb).1 ≠ .crash ∧ WorldOk env tal (getAndParse env w m cb).2 := by
  obtain ⟨ht, hc⟩ := hw
  subst ht
  obtain ⟨e, ch, w1, hget, hok, ht⟩ := cacheGet_safe (u := ⟨m.uri, false⟩) hp hc hclock hm
  unfold getAndParse
  rw [hget]
  simp only
  split
  · exact ⟨by simp, ht, hok⟩
  · refine ⟨?_, ht, hok⟩
    unfold parseFile validateHash
    cases h : w1.disk m.uri.loc with
    | none => simp
    | some c =>
      simp only
      split
      · unfold relaxNgParse
        split
        · refine readLoop_safe (fun _ _ => True) _ _ _ _ (Nat.le_refl _) trivial ?_ (fun _ _ _ => trivial)
          intro n hn hv s r _
          exact ⟨hcb s n r (hnode c n hn) hv, trivial⟩
        · simp
      · split <;> simp

theorem xmlReadDelta_safe {env : Env} {tal : List Byte} (hp : Place env tal) (u : Uri) (s : Option Session) (d : Disk) (n : XNode)
    (r : List XNode) (hn : NodeOk n) (hv : n.valid = true) : (xmlReadDelta env tal u s d n r).1 ≠ .crash := by
  unfold xmlReadDelta
  split
  · split
    · exact handlePublish_safe hp d n r u _
    · split
      · exact handleWithdraw_safe hp d n u
      · split
        · exact validateSession_safe hn hv s
        · simp
  · simp

theorem xmlReadSnapshot_safe {env : Env} {tal : List Byte} (hp : Place env tal) (u : Uri) (s : Option Session) (d : Disk) (n : XNode)
    (r : List XNode) (hn : NodeOk n) (hv : n.valid = true) : (xmlReadSnapshot env tal u s d n r).1 ≠ .crash := by
  unfold xmlReadSnapshot
  split
  · split
    · exact handlePublish_safe hp d n r u _
    · split
      · exact validateSession_safe hn hv s
      · simp
  · simp

/-- **C83.** Whatever documents servers give, RRDP updates have no undefined behaviour, provided the XML library enforces the schema
as described by `Trusted`. -/
theorem C83_no_crash {env : Env} {w : World} {u : Uri} {g cage : List Byte} (hp : Place env w.cache.tal)
    (hu : uriCreate env.repo (some w.cache.tal) .https none g = .ok u) (hcage : IsCage env w.cache.tal u cage)
    (ht : Trusted env w.cache.tal u) (hc : CacheOk env w.cache) :
    (rrdpUpdate env w u).1 ≠ .crash ∧ WorldOk env w.cache.tal (rrdpUpdate env w u).2 := by
  have hw : WorldOk env w.cache.tal w := ⟨rfl, hc⟩
  unfold rrdpUpdate
  simp only
  have hmeta : (getMetadata env w.cache.tal w.disk u).1 ≠ .crash := by
    unfold getMetadata
    split
    · simp
    · split
      · simp
      · have := parseNotification_safe hp ht w.disk
        split
        · simp
        · rename_i h; rw [h] at this; exact this
  split
  · obtain ⟨e, ch, w1, hget, hok, htal⟩ := cacheGet_safe (u := ⟨u, true⟩) hp hc ht.clock hu
    rw [hget]
    simp only
    have hw1 : WorldOk env w.cache.tal w1 := ⟨htal, hok⟩
    split
    · exact ⟨by simp, hw1⟩
    · split
      · exact ⟨by simp, hw1⟩
      · rename_i hch
        obtain ⟨-, url, hloc, -, -, -, hd⟩ := (cacheGet_spec (by simp [uriCreate_type hu]) hget).2.2.2 (by simpa using hch)
        have hat : w1.disk u.loc = some (env.http w.tick url).body := by rw [hd]; simp [Disk.set]
        have hpn := parseNotification_safe hp ht w1.disk
        split
        · rename_i nf hnf
          obtain ⟨hsch, hsn⟩ := ht.schema _ _ _ hat hnf
          obtain ⟨s, hs, hh, hlen, -, hser⟩ := parseNotification_ok hat hsch hnf
          have hsnap := parseNotification_snapshot hat hsn hnf
          have snap : ∀ w2, WorldOk env w.cache.tal w2 → (handleSnapshot env w.cache.tal w2 u nf).1 ≠ .crash ∧
              WorldOk env w.cache.tal (handleSnapshot env w.cache.tal w2 u nf).2 := by
            intro w2 hw2
            obtain ⟨pb, hpb, -⟩ := isCage_iff.1 hcage
            unfold handleSnapshot deleteRpp
            rw [hpb]
            simp only
            split
            · contradiction
            · rename_i m hm
              obtain ⟨g, hg⟩ := hh.1 m hm
              refine getAndParse_safe hp ?_ ht.clock hg ht.node (xmlReadSnapshot_safe hp u nf.session)
              exact ⟨hw2.1, hw2.2⟩
          have list : ∀ (ds : List Delta) (w2 : World), (∀ x ∈ ds, x ∈ nf.deltas) → WorldOk env w.cache.tal w2 →
              (handleDeltaList env w.cache.tal u nf ds w2).1 ≠ .crash ∧
              WorldOk env w.cache.tal (handleDeltaList env w.cache.tal u nf ds w2).2 := by
            intro ds
            induction ds with
            | nil => intro w2 _ h2; exact ⟨by simp [handleDeltaList], h2⟩
            | cons x ds ih =>
              intro w2 hin h2
              obtain ⟨g, hg⟩ := hh.2 x (hin x (List.mem_cons_self ..))
              have h := getAndParse_safe hp h2 ht.clock hg ht.node
                (fun d n r => xmlReadDelta_safe hp u (nf.session.map (fun s => ⟨s.id, x.serial⟩)) d n r)
              unfold handleDeltaList handleDelta
              split
              · rename_i w3 e
                rw [e] at h
                exact ih w3 (fun y hy => hin y (List.mem_cons_of_mem _ hy)) h.2
              · exact h
          have dels : ∀ o, (handleDeltas env w.cache.tal w1 u nf o).1 ≠ .crash ∧
              WorldOk env w.cache.tal (handleDeltas env w.cache.tal w1 u nf o).2 := by
            intro o
            unfold handleDeltas
            rw [hs]
            simp only
            split
            · exact ⟨by simp, hw1⟩
            · split
              · exact ⟨by simp, hw1⟩
              · split
                · exact ⟨by simp, hw1⟩
                · exact list _ _ (fun x hx => List.mem_of_mem_drop hx) hw1
          split
          · exact snap w1 hw1
          · rename_i o _
            have hdel := dels o.serial
            split
            · exact snap w1 hw1
            · split
              · split
                · rename_i e; rw [e] at hdel; exact ⟨by simp, hdel.2⟩
                · rename_i e; rw [e] at hdel; exact absurd rfl hdel.1
                · rename_i e; rw [e] at hdel; exact snap _ hdel.2
              · exact ⟨by simp, hw1⟩
        · rename_i h
          rw [h] at hpn
          exact ⟨hpn, hw1⟩
  · rename_i h
    rw [h] at hmeta
    exact ⟨hmeta, hw⟩

/-- **C83, what is trusted matters.** A version number that does not fit makes the message about it use freed memory; a
notification without a snapshot makes a NULL pointer be used. -/
theorem C83_schema_needed :
    (∃ n : XNode, (parseSession n).1 = .crash) ∧
    ∃ (env : Env) (w : World) (u : Uri) (nf : Notif), Place env w.cache.tal ∧ nf.snapshot = none ∧
      (handleSnapshot env w.cache.tal w u nf).1 = .crash := by
  refine ⟨⟨Ex.el "snapshot" [("version", txt "18446744073709551616")], by decide +kernel⟩, Ex.env, Ex.w0, Ex.u,
    ⟨none, none, []⟩, Ex.place, rfl, by decide +kernel⟩

/-- The example's server can be trusted this way. -/
example : Trusted Ex.env (txt "t") Ex.u := by
  have hall : ∀ l ∈ [Ex.notif1, Ex.notif2, Ex.snap1, Ex.snap2, Ex.delta2], ∀ n ∈ l, ∀ a ∈ n.attrs, a.1 = "version" → a.2 = txt "1" := by
    decide +kernel
  have hdoc : ∀ c, (Ex.env.xml c).nodes ∈ [Ex.notif1, Ex.notif2, Ex.snap1, Ex.snap2, Ex.delta2, []] := by
    intro c
    show (Ex.xml c).nodes ∈ _
    unfold Ex.xml
    split
    · simp
    · split
      · simp
      · split
        · simp
        · split
          · simp
          · split <;> simp
  refine ⟨fun c n hn _ s hs => ?_, fun c => ?_, fun d c nf hd h => ⟨Ex.schema d c nf hd h, ?_⟩, fun t url => ?_⟩
  · have hs1 : s = txt "1" := by
      unfold XNode.attr at hs
      obtain ⟨a, ha, rfl⟩ := Option.map_eq_some_iff.1 hs
      have hmem := List.mem_of_find?_eq_some ha
      have hk := List.find?_some ha
      simp only [decide_eq_true_eq] at hk
      have hin := hdoc c
      generalize (Ex.env.xml c).nodes = l at hn hin
      simp only [List.mem_cons, List.not_mem_nil, or_false] at hin
      rcases hin with rfl | rfl | rfl | rfl | rfl | rfl
      · exact hall _ (by simp) n hn a hmem hk
      · exact hall _ (by simp) n hn a hmem hk
      · exact hall _ (by simp) n hn a hmem hk
      · exact hall _ (by simp) n hn a hmem hk
      · exact hall _ (by simp) n hn a hmem hk
      · cases hn
    rw [hs1]
    decide +kernel
  · have hin := hdoc c
    generalize (Ex.env.xml c).nodes = l at hin
    simp only [List.mem_cons, List.not_mem_nil, or_false] at hin
    rcases hin with rfl | rfl | rfl | rfl | rfl | rfl <;> decide
  · rcases Ex.read_notif d c nf hd h with ⟨rfl, -⟩ | ⟨rfl, -⟩ <;> exact ⟨_, List.mem_cons_of_mem _ (List.mem_cons_self ..), rfl, rfl⟩
  · show (Ex.http t url).now ≠ -1
    have : (0 : Int) ≤ (Ex.http t url).now := by
      unfold Ex.http
      split
      · simp only; omega
      · split
        · simp only; omega
        · split
          · simp only; omega
          · split <;> (simp only; omega)
    omega

end Verif.Rrdp
