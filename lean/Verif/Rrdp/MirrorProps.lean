import Verif.Rrdp.UpdateProps
/-
C45: the local repository is a copy of the server's. C81: which files an update can touch.
-/
namespace Verif.Rrdp
open Verif.Res (Byte)
open Verif.Uri
open Verif.Cache (Url Cfg Op Cache)

theorem parseNotification_congr {env : Env} {tal : List Byte} {d d' : Disk} {u : Uri} (h : d' u.loc = d u.loc) :
    parseNotification env tal d' u = parseNotification env tal d u := by
  unfold parseNotification; rw [h]

theorem only_set_out {cage p : List Byte} (h : ¬ In cage p) (d : Disk) (v : Option (List Byte)) : only cage (d.set p v) = only cage d :=
  only_congr (fun q hq => by
    unfold Disk.set
    exact if_neg (fun (e : q = p) => h (e ▸ hq)))

/-- **C45, one update.** If the server is honest and the local repository is what the server had at the serial of the local
notification, then the same is true after a successful update. -/
theorem C45_update {env : Env} {w w' : World} {u : Uri} {g cage : List Byte} {files : List Byte → Nat → Disk}
    (hp : Place env w.cache.tal) (hu : uriCreate env.repo (some w.cache.tal) .https none g = .ok u)
    (hcage : IsCage env w.cache.tal u cage)
    (hschema : ∀ d c nf, d u.loc = some c → parseNotification env w.cache.tal d u = (.ok, nf) → SchemaOk (env.xml c))
    (hserver : Serves env w.cache.tal u files) (hsync : Synced env w.cache.tal u cage files w.disk)
    (h : rrdpUpdate env w u = (.ok, w')) : Synced env w.cache.tal u cage files w'.disk := by
  obtain ⟨old, hold, hsame | ⟨c, nf, s, d1, hd1, ⟨url, hloc, -, rfl⟩, hnf, hs, hcases, helse⟩⟩ := C45_steps hp hu hcage hschema h
  · rw [hsame]; exact hsync
  · have hat : d1 u.loc = some (env.http w.tick url).body := by rw [hd1]; simp [Disk.set]
    obtain ⟨hhon, hlisted⟩ := hserver _ url d1 nf s hloc hat hnf hs
    have hnin := https_not_in hp hcage hu
    have hkeep := helse u.loc hnin hlisted
    have honly : only cage d1 = only cage w.disk := by rw [hd1]; exact only_set_out hnin _ _
    -- the old state
    have hsy : ∀ o, old = some o → only cage w.disk = files o.id o.serial := by
      intro o ho
      subst ho
      obtain ⟨-, nfo, h1, h2⟩ := hold
      exact hsync nfo o h1 h2
    intro nf' s' hnf' hs'
    rw [parseNotification_congr hkeep, hnf] at hnf'
    cases hnf'
    rw [hs] at hs'
    cases hs'
    rcases hcases with ⟨ho, e⟩ | ⟨o, ds, ho, hlt, -, hsuf, hser, hf⟩ | ⟨m, c, cs, h1, h2, h3, h4, -⟩
    · rw [e, honly]; exact hsy s ho
    · have := follows_honest hhon ds o (s.serial - o) _ _ (fun x hx => hsuf.subset hx) hser hf (hsy _ ho)
      rw [this]; congr 1; omega
    · exact hhon.1 m c cs _ h1 h2 h3 h4

theorem rrdpUpdate_tal {env : Env} {w : World} {u : Uri} {g cage : List Byte} (hp : Place env w.cache.tal)
    (hu : uriCreate env.repo (some w.cache.tal) .https none g = .ok u) (hcage : IsCage env w.cache.tal u cage)
    (hschema : ∀ d c nf, d u.loc = some c → parseNotification env w.cache.tal d u = (.ok, nf) → SchemaOk (env.xml c)) :
    (rrdpUpdate env w u).2.cache.tal = w.cache.tal ∧
    Within cage (fun q => q = u.loc ∨ ∃ g v, uriCreate env.repo (some w.cache.tal) .https none g = .ok v ∧ q = v.loc)
      w.disk (rrdpUpdate env w u).2.disk := by
  generalize hA : (fun q => q = u.loc ∨ ∃ g v, uriCreate env.repo (some w.cache.tal) .https none g = .ok v ∧ q = v.loc) = A
  have hty : (⟨u, true⟩ : Url).uri.type ≠ .rsync := by simp [uriCreate_type hu]
  unfold rrdpUpdate
  simp only
  split
  · split
    · exact ⟨rfl, .refl _⟩
    · rename_i e ch w1 hget
      obtain ⟨htal, -, hsame, hnew⟩ := cacheGet_spec hty hget
      have hw1 : Within cage A w.disk w1.disk := fun q _ hq => cacheGet_else hty hget q (fun e => hq (by rw [← hA]; exact .inl e))
      split
      · exact ⟨htal, hw1⟩
      · split
        · exact ⟨htal, hw1⟩
        · rename_i hch
          obtain ⟨-, url, hloc, -, -, -, hd⟩ := hnew (by simpa using hch)
          have hat : w1.disk u.loc = some (env.http w.tick url).body := by rw [hd]; simp [Disk.set]
          split
          · rename_i nf hnf
            obtain ⟨s, hs, hh, hlen, -, hser⟩ := parseNotification_ok hat (hschema _ _ _ hat hnf) hnf
            have hls : ∀ m, nf.snapshot = some m → m.uri.type = .https ∧ A m.uri.loc := fun m hm => by
              obtain ⟨g, hg⟩ := hh.1 m hm
              exact ⟨uriCreate_type hg, by rw [← hA]; exact .inr ⟨g, _, hg, rfl⟩⟩
            have hld : ∀ x ∈ nf.deltas, x.info.uri.type = .https ∧ A x.info.uri.loc := fun x hx => by
              obtain ⟨g, hg⟩ := hh.2 x hx
              exact ⟨uriCreate_type hg, by rw [← hA]; exact .inr ⟨g, _, hg, rfl⟩⟩
            have snapTal : ∀ w2 : World, w2.cache.tal = w.cache.tal →
                (handleSnapshot env w.cache.tal w2 u nf).2.cache.tal = w.cache.tal := by
              intro w2 h2
              unfold handleSnapshot
              split
              · split
                · exact h2
                · rename_i d _ _ m hm
                  exact ((getAndParse_within (env := env) (cage := cage) (w := { w2 with disk := d }) (hls m hm).1 (hls m hm).2
                    (xmlReadSnapshot_within hp hcage A nf.session)).2).trans h2
              · exact h2
            have snap : ∀ w2 : World, w2.cache.tal = w.cache.tal → Within cage A w1.disk w2.disk →
                (handleSnapshot env w.cache.tal w2 u nf).2.cache.tal = w.cache.tal ∧
                Within cage A w.disk (handleSnapshot env w.cache.tal w2 u nf).2.disk := fun w2 h2 h3 =>
              ⟨snapTal w2 h2, hw1.trans (h3.trans (handleSnapshot_within hp hcage nf w2 hls))⟩
            have listTal : ∀ (ds : List Delta) (w2 : World), (∀ x ∈ ds, x ∈ nf.deltas) → w2.cache.tal = w.cache.tal →
                (handleDeltaList env w.cache.tal u nf ds w2).2.cache.tal = w.cache.tal := by
              intro ds
              induction ds with
              | nil => intro w2 _ h; exact h
              | cons x ds ih =>
                intro w2 hin h2
                have hx := hld x (hin x (List.mem_cons_self ..))
                have h := (getAndParse_within (env := env) (cage := cage) (w := w2) hx.1 hx.2
                  (xmlReadDelta_within hp hcage A (nf.session.map (fun s => ⟨s.id, x.serial⟩)))).2
                unfold handleDeltaList handleDelta
                split
                · rename_i w3 e
                  rw [e] at h
                  exact ih w3 (fun y hy => hin y (List.mem_cons_of_mem _ hy)) (h.trans h2)
                · exact h.trans h2
            have delTal : ∀ o, (handleDeltas env w.cache.tal w1 u nf o).2.cache.tal = w.cache.tal := by
              intro o
              unfold handleDeltas
              split
              · exact htal
              · split
                · exact htal
                · simp only
                  split
                  · exact htal
                  · split
                    · exact htal
                    · exact listTal _ _ (fun x hx => List.mem_of_mem_drop hx) htal
            have hdel : ∀ o, Within cage A w1.disk (handleDeltas env w.cache.tal w1 u nf o).2.disk := fun o =>
              handleDeltas_within hp hcage nf w1 o hld
            split
            · exact snap w1 htal (.refl _)
            · rename_i o _
              have h1 := delTal o.serial
              have h2 := hdel o.serial
              split
              · exact snap w1 htal (.refl _)
              · split
                · split
                  · rename_i e; rw [e] at h1 h2; exact ⟨h1, hw1.trans h2⟩
                  · rename_i e; rw [e] at h1 h2; exact ⟨h1, hw1.trans h2⟩
                  · rename_i e; rw [e] at h1 h2; exact snap _ h1 h2
                · exact ⟨htal, hw1⟩
          · exact ⟨htal, hw1⟩
  · exact ⟨rfl, .refl _⟩

/-- **C81, confinement.** Whatever the notification, snapshot and deltas say, and whether it succeeds or not, an update only changes
files in the repository's own directory, and files that are the TAL's copies of https URLs. -/
theorem C81_confined {env : Env} {w : World} {u : Uri} {g cage : List Byte} (hp : Place env w.cache.tal)
    (hu : uriCreate env.repo (some w.cache.tal) .https none g = .ok u) (hcage : IsCage env w.cache.tal u cage)
    (hschema : ∀ d c nf, d u.loc = some c → parseNotification env w.cache.tal d u = (.ok, nf) → SchemaOk (env.xml c))
    (q : List Byte) (hq : (rrdpUpdate env w u).2.disk q ≠ w.disk q) :
    In cage q ∨ ∃ g v, uriCreate env.repo (some w.cache.tal) .https none g = .ok v ∧ q = v.loc := by
  by_cases hin : In cage q
  · exact .inl hin
  · refine .inr (Classical.by_contradiction fun hno => hq ?_)
    refine (rrdpUpdate_tal hp hu hcage hschema).2 q hin ?_
    rintro (rfl | h)
    · exact hno ⟨g, u, hu, rfl⟩
    · exact hno h

/-- **C45, histories.** Starting without a notification (or with one whose repository is what it says), after any number of
successful updates, with anything that leaves the repository and its notification alone in between: the files are exactly
those the server had at the serial of the local notification. -/
theorem C45_history {env : Env} {w w' : World} {u : Uri} {g cage : List Byte} {files : List Byte → Nat → Disk}
    (hp : Place env w.cache.tal) (hu : uriCreate env.repo (some w.cache.tal) .https none g = .ok u)
    (hcage : IsCage env w.cache.tal u cage)
    (hschema : ∀ d c nf, d u.loc = some c → parseNotification env w.cache.tal d u = (.ok, nf) → SchemaOk (env.xml c))
    (hserver : Serves env w.cache.tal u files) (hsync : Synced env w.cache.tal u cage files w.disk)
    (h : Runs env u cage w w') : Synced env w.cache.tal u cage files w'.disk := by
  suffices w'.cache.tal = w.cache.tal ∧ Synced env w.cache.tal u cage files w'.disk from this.2
  induction h with
  | start => exact ⟨rfl, hsync⟩
  | update w1 w2 h hup ih =>
    obtain ⟨i1, i2⟩ := ih
    rw [← i1] at hp hu hcage hschema hserver i2
    have ht := (rrdpUpdate_tal hp hu hcage hschema).1
    rw [hup] at ht
    refine ⟨ht.trans i1, ?_⟩
    rw [← i1]
    exact C45_update hp hu hcage hschema hserver i2 hup
  | other w1 w2 h ht hd ih =>
    obtain ⟨i1, i2⟩ := ih
    refine ⟨ht.trans i1, fun nf s h1 h2 => ?_⟩
    rw [parseNotification_congr (hd u.loc (.inr rfl))] at h1
    rw [only_congr (fun q hq => hd q (.inl hq))]
    exact i2 nf s h1 h2

end Verif.Rrdp
