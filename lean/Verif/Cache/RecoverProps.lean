import Verif.Cache.DownloadProps
/-
C42: what is used when nothing can be downloaded.
-/
namespace Verif.Cache
open Verif.Res (Byte)
open Verif.Uri

/-! ### Specification -/

/-- The alternatives the cache has a usable copy of: those whose target was downloaded successfully at least once. -/
def usable (repo : List Byte) (c : Cache) (u : Url) : Option (Url × Node) :=
  match target repo c.tal u with
  | none => none
  | some p =>
    match findNode c p with
    | none => none
    | some n => if n.success.isSome then some (u, n) else none

/-- When the copy was downloaded. -/
def ts (n : Node) : Int := n.success.getD 0

/-- A copy is better than another one when its last download succeeded and the other's did not, or, the last downloads
having ended alike, when it is more recent. -/
def Better (a b : Node) : Prop :=
  (a.attemptRes = 0 ∧ b.attemptRes ≠ 0) ∨ ((a.attemptRes = 0 ↔ b.attemptRes = 0) ∧ ts b < ts a)

/-! ### Proofs -/

theorem better_trans {a b c : Node} (h1 : Better a b) (h2 : Better b c) : Better a c := by
  unfold Better at *; omega

theorem better_of_not {a b c : Node} (h1 : Better a b) (h2 : ¬ Better c b) : Better a c := by
  unfold Better at *; omega

theorem not_better_trans {a b c : Node} (h1 : ¬ Better a b) (h2 : ¬ Better b c) : ¬ Better a c := by
  unfold Better at *; omega

theorem chooseBetter_eq {o n : Node} (h : n.success.isSome) :
    chooseBetter (some o) n = some n ∧ Better n o ∨ chooseBetter (some o) n = some o ∧ ¬ Better n o := by
  unfold chooseBetter
  cases hs : n.success with
  | none => rw [hs] at h; cases h
  | some nt =>
    simp only
    have htn : ts n = nt := by simp [ts, hs]
    have hto : o.success.getD 0 = ts o := rfl
    rw [hto]
    have hb : newIsBetter o n (ts o) nt = true ↔ Better n o := by
      unfold newIsBetter Better
      split
      · rename_i h1; simp only [true_iff]; omega
      · split
        · rename_i h1 h2; simp only [Bool.false_eq_true, false_iff]; omega
        · rename_i h1 h2; simp only [decide_eq_true_eq]; omega
    by_cases hc : newIsBetter o n (ts o) nt = true
    · rw [if_pos hc]; exact .inl ⟨rfl, hb.1 hc⟩
    · rw [if_neg hc]; exact .inr ⟨rfl, fun h => hc (hb.2 h)⟩

/-- Chosen, of a list of usable copies: the first node none is better than, and its last URL. -/
def Chosen (l : List (Url × Node)) (b : Url × Node) : Prop :=
  (∃ pre v post, l = pre ++ (v, b.2) :: post ∧ (∀ x ∈ pre, Better b.2 x.2) ∧ ∀ x ∈ post, ¬ Better x.2 b.2) ∧
  ∃ pre post, l = pre ++ b :: post ∧ ∀ x ∈ post, x.2 ≠ b.2

/-- The loop's invariant. -/
def BestOf (c : Cache) (done : List (Url × Node)) (best : Option (Url × Node)) : Prop :=
  match best with
  | none => done = []
  | some b => b.2.success.isSome ∧ findNode c b.2.key = some b.2 ∧ Chosen done b

theorem recoverLoop_spec {repo : List Byte} {c : Cache} : ∀ (us : List Url) (done : List (Url × Node)) (best : Option (Url × Node)),
    BestOf c done best → BestOf c (done ++ us.filterMap (usable repo c)) (cacheRecoverLoop repo c us best) := by
  intro us
  induction us with
  | nil =>
    intro done best h
    simpa [cacheRecoverLoop] using h
  | cons u us ih =>
    intro done best h
    unfold cacheRecoverLoop
    have skip : usable repo c u = none →
        BestOf c (done ++ (u :: us).filterMap (usable repo c)) (cacheRecoverLoop repo c us best) := by
      intro hu
      rw [List.filterMap_cons_none hu]
      exact ih done best h
    cases hg : getUrl repo c.tal u with
    | crash => exact skip (by simp [usable, target, hg])
    | err e => exact skip (by simp [usable, target, hg])
    | ok url =>
      simp only
      cases hf : findNode c url.uri.loc with
      | none => exact skip (by simp [usable, target, hg, hf])
      | some n =>
        simp only
        have hk := find_key hf
        have hfn : findNode c n.key = some n := by rw [hk]; exact hf
        by_cases hs : n.success.isSome
        · have hu : usable repo c u = some (u, n) := by simp [usable, target, hg, hf, hs]
          rw [List.filterMap_cons_some hu]
          have happ : done ++ (u, n) :: us.filterMap (usable repo c) = (done ++ [(u, n)]) ++ us.filterMap (usable repo c) := by simp
          rw [happ]
          cases best with
          | none =>
            obtain ⟨nt, hnt⟩ := Option.isSome_iff_exists.1 hs
            have hc : (chooseBetter ((none : Option (Url × Node)).map (·.2)) n).map Node.key = some n.key := by
              simp [chooseBetter, hnt]
            rw [if_pos hc]
            simp only [BestOf] at h
            subst h
            exact ih _ _ ⟨hs, hfn, ⟨[], u, [], by simp, by simp, by simp⟩, [], [], by simp, by simp⟩
          | some b =>
            obtain ⟨hb1, hb2, ⟨pre, v, post, h1, h2, h3⟩, pre2, post2, h4, h5⟩ := h
            have hpm : (Option.map (fun x : Url × Node => x.2) (some b)) = some b.2 := rfl
            rw [hpm]
            rcases chooseBetter_eq (o := b.2) hs with ⟨e1, e2⟩ | ⟨e1, e2⟩
            · rw [e1, if_pos (by simp)]
              refine ih _ _ ⟨hs, hfn, ⟨done, u, [], by simp, ?_, by simp⟩, done, [], by simp, by simp⟩
              intro x hx
              rw [h1] at hx
              rcases List.mem_append.1 hx with hx | hx
              · exact better_trans e2 (h2 x hx)
              · rcases List.mem_cons.1 hx with rfl | hx
                · exact e2
                · exact better_of_not e2 (h3 x hx)
            · rw [e1]
              by_cases hkey : b.2.key = n.key
              · have hbn : b.2 = n := by
                  have := hb2
                  rw [hkey, hfn] at this
                  exact (Option.some.inj this).symm
                rw [if_pos (by simp [hkey])]
                subst hbn
                refine ih _ _ ⟨hs, hfn, ⟨pre, v, post ++ [(u, b.2)], by rw [h1]; simp, h2, ?_⟩, done, [], by simp, by simp⟩
                intro x hx
                rcases List.mem_append.1 hx with hx | hx
                · exact h3 x hx
                · simp only [List.mem_singleton] at hx; subst hx; exact e2
              · rw [if_neg (by simp [hkey])]
                refine ih _ _ ⟨hb1, hb2, ⟨pre, v, post ++ [(u, n)], by rw [h1]; simp, h2, ?_⟩,
                  pre2, post2 ++ [(u, n)], by rw [h4]; simp, ?_⟩
                · intro x hx
                  rcases List.mem_append.1 hx with hx | hx
                  · exact h3 x hx
                  · simp only [List.mem_singleton] at hx; subst hx; exact e2
                · intro x hx
                  rcases List.mem_append.1 hx with hx | hx
                  · exact h5 x hx
                  · simp only [List.mem_singleton] at hx; subst hx
                    exact fun e => hkey (by rw [← e])
        · have hu : usable repo c u = none := by simp [usable, target, hg, hf, hs]
          have hsn : n.success = none := by simpa using hs
          by_cases hc : (chooseBetter (best.map (·.2)) n).map Node.key = some n.key
          · exfalso
            cases best with
            | none => simp [chooseBetter, hsn] at hc
            | some b =>
              obtain ⟨hb1, hb2, -⟩ := h
              simp only [chooseBetter, hsn, Option.map_some, Option.some.injEq] at hc
              rw [hc, hfn] at hb2
              rw [← Option.some.inj hb2, hsn] at hb1
              cases hb1
          · rw [if_neg hc]
            exact skip hu

/-- **C42.** What is recovered is nothing exactly when no alternative has a usable copy; otherwise it is an alternative
whose copy none is better than (the first such copy in the listed order). -/
theorem C42_best (repo : List Byte) (c : Cache) (us : List Url) :
    (cacheRecover repo c us = none ↔ us.filterMap (usable repo c) = []) ∧
    ∀ u, cacheRecover repo c us = some u → u ∈ us ∧
      ∃ n, usable repo c u = some (u, n) ∧ Chosen (us.filterMap (usable repo c)) (u, n) ∧
        ∀ v m, v ∈ us → usable repo c v = some (v, m) → ¬ Better m n := by
  have h := recoverLoop_spec (repo := repo) (c := c) us [] none rfl
  rw [List.nil_append] at h
  have hus : ∀ u x, usable repo c u = some x → x.1 = u := by
    intro u x hx
    unfold usable at hx
    split at hx
    · cases hx
    · split at hx
      · cases hx
      · split at hx
        · cases hx; rfl
        · cases hx
  unfold cacheRecover
  cases hl : cacheRecoverLoop repo c us none with
  | none =>
    rw [hl] at h
    simp only [BestOf] at h
    exact ⟨⟨fun _ => h, fun _ => rfl⟩, fun u hu => by cases hu⟩
  | some b =>
    rw [hl] at h
    obtain ⟨hb1, hb2, hch⟩ := h
    have hmem : b ∈ us.filterMap (usable repo c) := by
      obtain ⟨-, pre, post, h4, -⟩ := hch
      rw [h4]; simp
    refine ⟨⟨(fun h => by cases h), (fun h => by rw [h] at hmem; cases hmem)⟩, ?_⟩
    intro u hu
    simp only [Option.map_some, Option.some.injEq] at hu
    subst hu
    obtain ⟨u', hu', he⟩ := List.mem_filterMap.1 hmem
    have := hus u' b he
    subst this
    refine ⟨hu', b.2, he, hch, ?_⟩
    intro v m hv hm
    have hx : (v, m) ∈ us.filterMap (usable repo c) := List.mem_filterMap.2 ⟨v, hv, hm⟩
    obtain ⟨⟨pre, w, post, h1, h2, h3⟩, -⟩ := hch
    rw [h1] at hx
    rcases List.mem_append.1 hx with hx | hx
    · have := h2 _ hx
      simp only at this
      unfold Better at *; omega
    · rcases List.mem_cons.1 hx with hx | hx
      · rw [(Prod.mk.inj hx).2]; unfold Better; omega
      · exact h3 _ hx

/-! ### The most recent copy -/

/-- What the timestamps of a node mean at the start of a cycle: everything was before it. -/
def Old (start : Int) (n : Node) : Prop := n.attemptTs < start ∧ ∀ t, n.success = some t → t < start

/-- And during the cycle, once its URL was requested. -/
def Current (start : Int) (n : Node) : Prop :=
  start ≤ n.attemptTs ∧ (n.attemptRes = 0 → n.success = some n.attemptTs) ∧
    (n.attemptRes ≠ 0 → ∀ t, n.success = some t → t < start)

theorem serve_current {cfg : Cfg} {repo : List Byte} : ∀ (rs : List Req) (c c' : Cache) (os : List Obs),
    serve cfg repo c rs = some (c', os) → (∀ r ∈ rs, ∀ op u, c.startup ≤ (r.resp op u).now) →
    (∀ k n, findNode c k = some n → Old c.startup n ∨ Current c.startup n) →
    c'.startup = c.startup ∧ c'.tal = c.tal ∧ (∀ k n, findNode c' k = some n → Old c.startup n ∨ Current c.startup n) ∧
    (∀ k n, findNode c k = some n → Current c.startup n → findNode c' k = some n) ∧
    ∀ r ∈ rs, ∀ p, target repo c.tal r.url = some p → ∃ n, findNode c' p = some n ∧ Current c.startup n := by
  intro rs
  induction rs with
  | nil =>
    intro c c' os h _ hold
    simp only [serve, Option.some.injEq, Prod.mk.injEq] at h
    obtain ⟨rfl, rfl⟩ := h
    exact ⟨rfl, rfl, hold, fun _ _ h _ => h, by simp⟩
  | cons r rs ih =>
    intro c c' os h hclock hold
    unfold serve at h
    cases hd : cacheDownload cfg repo c r.url r.resp with
    | none => rw [hd] at h; cases h
    | some d =>
      rw [hd] at h
      simp only at h
      cases hs : serve cfg repo d.cache rs with
      | none => rw [hs] at h; cases h
      | some x =>
        obtain ⟨c2, os2⟩ := x
        rw [hs] at h
        simp only [Option.some.injEq, Prod.mk.injEq] at h
        obtain ⟨rfl, rfl⟩ := h
        have hclock' : ∀ r ∈ rs, ∀ op u, c.startup ≤ (r.resp op u).now := fun r' hr => hclock r' (by simp [hr])
        rcases cacheDownload_cases hd with ⟨e, h1, rfl⟩ | ⟨url, m, h1, h2, h3, rfl⟩ | ⟨url, m, op, h1, h2, h3, h4, h5, h6, h7, -, -, h8⟩
        · obtain ⟨a1, a2, a3, a4, a5⟩ := ih c c2 os2 hs hclock' hold
          refine ⟨a1, a2, a3, a4, ?_⟩
          intro r' hr p hp
          rcases List.mem_cons.1 hr with rfl | hr
          · simp only [target, h1] at hp; cases hp
          · exact a5 r' hr p hp
        · obtain ⟨a1, a2, a3, a4, a5⟩ := ih c c2 os2 hs hclock' hold
          refine ⟨a1, a2, a3, a4, ?_⟩
          intro r' hr p hp
          rcases List.mem_cons.1 hr with rfl | hr
          · simp only [target, h1, Option.some.injEq] at hp
            have hcur : Current c.startup m := by
              rcases hold _ _ h2 with h | h
              · have := h.1; omega
              · exact h
            rw [← hp]
            exact ⟨m, a4 _ _ h2 hcur, hcur⟩
          · exact a5 r' hr p hp
        · have hnow := hclock r (by simp) op m.url
          have hmold : ∀ t, m.success = some t → t < c.startup := by
            intro t ht
            rcases h3 with ⟨h3, h3'⟩ | ⟨-, rfl⟩
            · rcases hold _ _ h3 with h | h
              · exact h.2 t ht
              · have := h.1; omega
            · cases ht
          have hnew : Current c.startup ⟨m.url, (r.resp op m.url).now, (r.resp op m.url).result,
              if (r.resp op m.url).result = 0 then some (r.resp op m.url).now else m.success⟩ := by
            refine ⟨hnow, fun h => ?_, fun h => ?_⟩
            · simp only at h ⊢; rw [if_pos h]
            · simp only at h ⊢; rw [if_neg h]; exact hmold
          have hold' : ∀ k n, findNode d.cache k = some n → Old c.startup n ∨ Current c.startup n := by
            intro k n hk
            rw [h8] at hk
            split at hk
            · cases hk; exact .inr hnew
            · exact hold k n hk
          obtain ⟨a1, a2, a3, a4, a5⟩ := ih d.cache c2 os2 hs (by rw [h6]; exact hclock') (by rw [h6]; exact hold')
          rw [h6] at a1 a3 a4 a5
          rw [h7] at a2 a5
          refine ⟨a1, a2, a3, ?_, ?_⟩
          · intro k n hk hcur
            apply a4 k n ?_ hcur
            rw [h8, if_neg, hk]
            intro e
            rw [h2] at e
            rw [e] at hk
            rcases h3 with ⟨h3, h3'⟩ | ⟨h3, -⟩
            · rw [hk] at h3; cases h3; have := hcur.1; omega
            · rw [hk] at h3; cases h3
          · intro r' hr p hp
            rcases List.mem_cons.1 hr with rfl | hr
            · simp only [target, h1, Option.some.injEq] at hp
              refine ⟨_, a4 p _ (by rw [h8, if_pos (by rw [h2]; exact hp.symm)]) hnew, hnew⟩
            · exact a5 r' hr p hp

/-- **C42, in a cycle.** When the cycle starts with what earlier cycles left (all of it older than the start) and each
alternative was requested in the cycle, the alternative that is recovered is one whose copy is the most recent of all, and
whose last download succeeded if any did. -/
theorem C42_most_recent {cfg : Cfg} {repo : List Byte} {rs : List Req} {c c' : Cache} {os : List Obs} {us : List Url}
    (h : serve cfg repo c rs = some (c', os)) (hclock : ∀ r ∈ rs, ∀ op u, c.startup ≤ (r.resp op u).now)
    (hold : ∀ n ∈ c.nodes, Old c.startup n) (hreq : ∀ u ∈ us, ∃ r ∈ rs, target repo c.tal r.url = target repo c.tal u) (u : Url)
    (hu : cacheRecover repo c' us = some u) :
    ∃ n t, usable repo c' u = some (u, n) ∧ n.success = some t ∧
      ∀ v m t', v ∈ us → usable repo c' v = some (v, m) → m.success = some t' →
        (m.attemptRes = 0 → n.attemptRes = 0) ∧ t' ≤ t := by
  obtain ⟨a1, a2, a3, a4, a5⟩ := serve_current rs c c' os h hclock (fun k n hk => .inl (hold n (find_mem hk)))
  have hcur : ∀ v m, v ∈ us → usable repo c' v = some (v, m) → Current c.startup m ∧ m.success.isSome := by
    intro v m hv hm
    unfold usable at hm
    cases ht : target repo c'.tal v with
    | none => rw [ht] at hm; cases hm
    | some p =>
      rw [ht] at hm
      simp only at hm
      cases hf : findNode c' p with
      | none => rw [hf] at hm; cases hm
      | some n =>
        rw [hf] at hm
        simp only at hm
        split at hm
        · rename_i hs
          cases hm
          obtain ⟨r, hr, he⟩ := hreq v hv
          rw [a2] at ht
          obtain ⟨n', hn', hc'⟩ := a5 r hr p (by rw [he, ht])
          rw [hf] at hn'
          cases hn'
          exact ⟨hc', hs⟩
        · cases hm
  obtain ⟨-, hbest⟩ := C42_best repo c' us
  obtain ⟨hmem, n, hn, -, hall⟩ := hbest u hu
  obtain ⟨hc, hs⟩ := hcur u n hmem hn
  obtain ⟨t, ht⟩ := Option.isSome_iff_exists.1 hs
  refine ⟨n, t, hn, ht, ?_⟩
  intro v m t' hv hm ht'
  obtain ⟨hc', -⟩ := hcur v m hv hm
  have hnb := hall v m hv hm
  have e1 : ts n = t := by simp [ts, ht]
  have e2 : ts m = t' := by simp [ts, ht']
  unfold Better at hnb
  rw [e1, e2] at hnb
  refine ⟨?_, ?_⟩
  · intro h0
    by_contra hne
    exact hnb (.inl ⟨h0, hne⟩)
  · by_cases hne : m.attemptRes = 0
    · omega
    by_cases h0 : n.attemptRes = 0
    · have h1 := hc.2.1 h0
      rw [ht] at h1
      cases h1
      have := hc'.2.2 hne t' ht'
      have := hc.1
      omega
    · by_contra hlt
      exact hnb (.inr ⟨by simp [hne, h0], by omega⟩)

/-- Three alternatives: the first never succeeded, the second one failed now, the third one was rejected by the caller. -/
example : cacheRecover (txt "/r")
    ⟨txt "t", [⟨⟨⟨txt "https://a/1", txt "/r/t/https/a/1", .https⟩, true⟩, 20, 5, none⟩,
      ⟨⟨⟨txt "https://a/2", txt "/r/t/https/a/2", .https⟩, true⟩, 21, 5, some 9⟩,
      ⟨⟨⟨txt "rsync://a/3/", txt "/r/t/rsync/a/3", .rsync⟩, false⟩, 22, 0, some 22⟩], 10⟩
    [⟨⟨txt "https://a/1", txt "/r/t/https/a/1", .https⟩, true⟩, ⟨⟨txt "https://a/2", txt "/r/t/https/a/2", .https⟩, true⟩,
     ⟨⟨txt "rsync://a/3/x/y", txt "/r/t/rsync/a/3/x/y", .rsync⟩, false⟩] =
    some ⟨⟨txt "rsync://a/3/x/y", txt "/r/t/rsync/a/3/x/y", .rsync⟩, false⟩ := by decide +kernel

/-- A cycle that meets the hypotheses: an old copy, and a failed attempt now. -/
example :
    let u : Url := ⟨⟨txt "https://a/2", txt "/r/t/https/a/2", .https⟩, true⟩
    let c : Cache := ⟨txt "t", [⟨u, 3, 0, some 3⟩], 10⟩
    (∀ n ∈ c.nodes, Old c.startup n) ∧
    (serve ⟨true, true, 50, 60⟩ (txt "/r") c [⟨u, fun _ _ => ⟨5, 11⟩⟩]).map (fun x => cacheRecover (txt "/r") x.1 [u]) =
      some (some u) := by
  refine ⟨?_, by decide +kernel⟩
  intro n hn
  simp only [List.mem_singleton] at hn
  subst hn
  refine ⟨by decide, fun t ht => ?_⟩
  cases ht
  decide

end Verif.Cache
