import Verif.Cache.Lemmas
/-
C41, C42, C43: downloads.
-/
namespace Verif.Cache
open Verif.Res (Byte)
open Verif.Uri

/-! ### C41 -/

/-- A request, and what the world answers if it is asked. -/
structure Req where
  url : Url
  resp : Op → Url → Resp

/-- What is observed of a request. -/
structure Obs where
  req : Req
  result : Int
  tried : Option (Op × Url)

/-- A cycle: one request after the other. `none`: the program died. -/
def serve (cfg : Cfg) (repo : List Byte) : Cache → List Req → Option (Cache × List Obs)
  | c, [] => some (c, [])
  | c, r :: rs =>
    match cacheDownload cfg repo c r.url r.resp with
    | none => none
    | some d =>
      match serve cfg repo d.cache rs with
      | none => none
      | some (c, os) => some (c, ⟨r, d.result, d.tried⟩ :: os)

/-- Where the contents of a URL are downloaded to (rsync URLs are widened to their module). -/
def target (repo tal : List Byte) (u : Url) : Option (List Byte) :=
  match getUrl repo tal u with
  | .ok url => some url.uri.loc
  | _ => none

theorem serve_recent {cfg : Cfg} {repo : List Byte} : ∀ (rs : List Req) (c c' : Cache) (os : List Obs),
    serve cfg repo c rs = some (c', os) → ∀ p n, findNode c p = some n → c.startup ≤ n.attemptTs →
    findNode c' p = some n ∧ ∀ o ∈ os, target repo c.tal o.req.url = some p → o.tried = none ∧ o.result = n.attemptRes := by
  intro rs
  induction rs with
  | nil =>
    intro c c' os h p n hf hn
    simp only [serve, Option.some.injEq, Prod.mk.injEq] at h
    obtain ⟨rfl, rfl⟩ := h
    exact ⟨hf, by simp⟩
  | cons r rs ih =>
    intro c c' os h p n hf hn
    unfold serve at h
    cases hd : cacheDownload cfg repo c r.url r.resp with
    | none => rw [hd] at h; cases h
    | some d =>
      rw [hd] at h
      simp only at h
      cases hs : serve cfg repo d.cache rs with
      | none => rw [hs] at h; cases h
      | some x =>
        obtain ⟨c2, os2⟩ := x
        rw [hs] at h
        simp only [Option.some.injEq, Prod.mk.injEq] at h
        obtain ⟨rfl, rfl⟩ := h
        rcases cacheDownload_cases hd with ⟨e, h1, rfl⟩ | ⟨url, m, h1, h2, h3, rfl⟩ | ⟨url, m, op, h1, h2, h3, h4, h5, h6, h7, -, -, h8⟩
        · obtain ⟨a, b⟩ := ih c c2 os2 hs p n hf hn
          refine ⟨a, ?_⟩
          intro o ho ht
          rcases List.mem_cons.1 ho with rfl | ho
          · simp only [target, h1] at ht; cases ht
          · exact b o ho ht
        · obtain ⟨a, b⟩ := ih c c2 os2 hs p n hf hn
          refine ⟨a, ?_⟩
          intro o ho ht
          rcases List.mem_cons.1 ho with rfl | ho
          · simp only [target, h1, Option.some.injEq] at ht
            rw [ht, hf] at h2
            cases h2
            exact ⟨rfl, rfl⟩
          · exact b o ho ht
        · have hne : url.uri.loc ≠ p := by
            intro e
            rw [e, hf] at h3
            rcases h3 with ⟨h3, h3'⟩ | ⟨h3, -⟩
            · cases h3; omega
            · cases h3
          have hf' : findNode d.cache p = some n := by
            rw [h8, if_neg (by rw [h2]; exact fun e => hne e.symm), hf]
          obtain ⟨a, b⟩ := ih d.cache c2 os2 hs p n hf' (by rw [h6]; exact hn)
          refine ⟨a, ?_⟩
          intro o ho ht
          rcases List.mem_cons.1 ho with rfl | ho
          · simp only [target, h1, Option.some.injEq] at ht
            exact absurd ht hne
          · exact b o ho (by rw [h7]; exact ht)

/-- **C41.** In a cycle, whatever the requests and whatever the network answers, as long as the clock is not set back to
before the start of the cycle: when a target was requested (successfully or not), all later requests for it are answered
with the same result, and nothing is tried. -/
theorem C41_once {cfg : Cfg} {repo : List Byte} : ∀ (rs : List Req) (c c' : Cache) (os : List Obs),
    serve cfg repo c rs = some (c', os) → (∀ r ∈ rs, ∀ op u, c.startup ≤ (r.resp op u).now) →
    ∀ (i j : Nat) (oi oj : Obs) (p : List Byte), i < j → os[i]? = some oi → os[j]? = some oj →
      target repo c.tal oi.req.url = some p → target repo c.tal oj.req.url = some p →
      oj.tried = none ∧ oj.result = oi.result := by
  intro rs
  induction rs with
  | nil =>
    intro c c' os h _ i j oi oj p _ hi
    simp only [serve, Option.some.injEq, Prod.mk.injEq] at h
    obtain ⟨rfl, rfl⟩ := h
    simp at hi
  | cons r rs ih =>
    intro c c' os h hclock i j oi oj p hij hi hj hti htj
    unfold serve at h
    cases hd : cacheDownload cfg repo c r.url r.resp with
    | none => rw [hd] at h; cases h
    | some d =>
      rw [hd] at h
      simp only at h
      cases hs : serve cfg repo d.cache rs with
      | none => rw [hs] at h; cases h
      | some x =>
        obtain ⟨c2, os2⟩ := x
        rw [hs] at h
        simp only [Option.some.injEq, Prod.mk.injEq] at h
        obtain ⟨rfl, rfl⟩ := h
        have hsame : d.cache.startup = c.startup ∧ d.cache.tal = c.tal := by
          rcases cacheDownload_cases hd with ⟨e, h1, rfl⟩ | ⟨url, m, h1, h2, h3, rfl⟩ | ⟨url, m, op, h1, h2, h3, h4, h5, h6, h7, -, -, h8⟩
          · exact ⟨rfl, rfl⟩
          · exact ⟨rfl, rfl⟩
          · exact ⟨h6, h7⟩
        cases j with
        | zero => omega
        | succ j =>
          rw [List.getElem?_cons_succ] at hj
          cases i with
          | succ i =>
            rw [List.getElem?_cons_succ] at hi
            exact ih d.cache c2 os2 hs (by rw [hsame.1]; exact fun r' hr => hclock r' (by simp [hr])) i j oi oj p (by omega) hi hj
              (by rw [hsame.2]; exact hti) (by rw [hsame.2]; exact htj)
          | zero =>
            simp only [List.getElem?_cons_zero, Option.some.injEq] at hi
            subst hi
            have hmem : oj ∈ os2 := List.mem_of_getElem? hj
            rcases cacheDownload_cases hd with ⟨e, h1, rfl⟩ | ⟨url, m, h1, h2, h3, rfl⟩ | ⟨url, m, op, h1, h2, h3, h4, h5, h6, h7, -, -, h8⟩
            · simp only [target, h1] at hti; cases hti
            · simp only [target, h1, Option.some.injEq] at hti
              rw [hti] at h2
              exact (serve_recent rs c c2 os2 hs p m h2 h3).2 oj hmem htj
            · simp only [target, h1, Option.some.injEq] at hti
              have hk := h8 p
              rw [if_pos (by rw [h2]; exact hti.symm)] at hk
              obtain ⟨-, hb⟩ := serve_recent rs d.cache c2 os2 hs p _ hk
                (by rw [h6]; exact hclock r (by simp) op m.url)
              obtain ⟨b1, b2⟩ := hb oj hmem (by rw [h7]; exact htj)
              exact ⟨b1, by rw [b2, h5]⟩

/-- What a request tries is its own target, and its result is the world's answer; rsync is used exactly for enabled rsync
URLs and HTTP exactly for enabled https URLs. A request tries nothing only when it has no target (an error) or when its
target was attempted in this cycle already. -/
theorem C41_attempt {cfg : Cfg} {repo : List Byte} {c : Cache} {u : Url} {resp : Op → Url → Resp} {d : Dl}
    (h : cacheDownload cfg repo c u resp = some d) :
    (∀ op url, d.tried = some (op, url) → target repo c.tal u = some url.uri.loc ∧ d.result = (resp op url).result ∧
      (op = .rsync ↔ url.uri.type = .rsync ∧ cfg.rsyncEnabled = true) ∧
      (op = .http ↔ url.uri.type = .https ∧ cfg.httpEnabled = true)) ∧
    (d.tried = none → (target repo c.tal u = none ∧ d.result ≠ 0) ∨
      ∃ n ∈ c.nodes, target repo c.tal u = some n.key ∧ c.startup ≤ n.attemptTs ∧ d.result = n.attemptRes) := by
  rcases cacheDownload_cases h with ⟨e, h1, rfl⟩ | ⟨url, m, h1, h2, h3, rfl⟩ | ⟨url, m, op, h1, h2, h3, h4, h5, h6, h7, h8, h9, h10⟩
  · refine ⟨fun op url h => (by cases h), fun _ => .inl ⟨by simp [target, h1], ?_⟩⟩
    cases e <;> simp [errCode]
  · refine ⟨fun op url h => (by cases h), fun _ => .inr ⟨m, find_mem h2, ?_, h3, rfl⟩⟩
    simp [target, h1, find_key h2]
  · refine ⟨?_, fun h => (by rw [h4] at h; cases h)⟩
    intro op' url' h
    rw [h4] at h
    cases h
    exact ⟨by simp only [target, h1]; rw [← h2]; rfl, h5, h8, h9⟩

/-- Why the clock matters: when it goes back, the same URL is fetched again. -/
theorem C41_clock_refuted : ∃ (cfg : Cfg) (rs : List Req) (c c' : Cache) (os : List Obs) (o₁ o₂ : Obs),
    serve cfg (txt "/r") c rs = some (c', os) ∧ os = [o₁, o₂] ∧ o₁.req.url = o₂.req.url ∧ o₁.tried ≠ none ∧ o₂.tried ≠ none := by
  refine ⟨⟨true, true, 50, 60⟩,
    [⟨⟨⟨txt "https://a/b", txt "/r/t/https/a/b", .https⟩, false⟩, fun _ _ => ⟨0, 5⟩⟩,
     ⟨⟨⟨txt "https://a/b", txt "/r/t/https/a/b", .https⟩, false⟩, fun _ _ => ⟨0, 6⟩⟩],
    ⟨txt "t", [], 10⟩, _, _, ⟨_, _, _⟩, ⟨_, _, _⟩, rfl, rfl, rfl, ?_, ?_⟩
  · simp [fetch]
  · simp [fetch]

/-- Two files of an rsync module: one download. -/
example : (serve ⟨true, true, 50, 60⟩ (txt "/r") ⟨txt "t", [], 10⟩
    [⟨⟨⟨txt "rsync://a/b/c/d.cer", txt "/r/t/rsync/a/b/c/d.cer", .rsync⟩, false⟩, fun _ _ => ⟨7, 11⟩⟩,
     ⟨⟨⟨txt "rsync://a/b/e.cer", txt "/r/t/rsync/a/b/e.cer", .rsync⟩, false⟩, fun _ _ => ⟨0, 12⟩⟩]).map
      (fun x => x.2.map (fun o => (o.result, o.tried.map (fun t => (t.1, t.2.uri.loc))))) =
    some [(7, some (Op.rsync, txt "/r/t/rsync/a/b")), (7, none)] := by decide +kernel

/-! ### C43 -/

/-- The URLs in the order they have to be tried: by priority of the protocol, then as listed. -/
def order (cfg : Cfg) (us : List Url) : List Url :=
  if cfg.httpPriority > cfg.rsyncPriority then
    us.filter (fun u => decide (u.uri.type = .https)) ++ us.filter (fun u => decide (u.uri.type = .rsync))
  else if cfg.httpPriority < cfg.rsyncPriority then
    us.filter (fun u => decide (u.uri.type = .rsync)) ++ us.filter (fun u => decide (u.uri.type = .https))
  else us

/-- Priority of a URL. -/
def prio (cfg : Cfg) (u : Url) : Nat :=
  match u.uri.type with
  | .https => cfg.httpPriority
  | .rsync => cfg.rsyncPriority
  | .caged => 0

/-- The order is by priority, and keeps the listed order of each protocol's URLs. -/
theorem C43_order (cfg : Cfg) (us : List Url) (h : ∀ u ∈ us, u.uri.type ≠ .caged) :
    (order cfg us).Perm us ∧ (order cfg us).Pairwise (fun a b => prio cfg b ≤ prio cfg a) ∧
    (∀ t, (order cfg us).filter (fun u => decide (u.uri.type = t)) = us.filter (fun u => decide (u.uri.type = t))) ∧
    (cfg.httpPriority = cfg.rsyncPriority → order cfg us = us) := by
  have hneg : us.filter (fun u => decide (u.uri.type = .rsync)) = us.filter (fun u => !decide (u.uri.type = .https)) := by
    apply List.filter_congr
    intro u hu
    have := h u hu
    cases ht : u.uri.type <;> simp_all
  have hneg' : us.filter (fun u => decide (u.uri.type = .https)) = us.filter (fun u => !decide (u.uri.type = .rsync)) := by
    apply List.filter_congr
    intro u hu
    have := h u hu
    cases ht : u.uri.type <;> simp_all
  have hfil : ∀ a b : UriType, (us.filter (fun u => decide (u.uri.type = a))).filter (fun u => decide (u.uri.type = b)) =
      if a = b then us.filter (fun u => decide (u.uri.type = b)) else [] := by
    intro a b
    rw [List.filter_filter]
    split
    · rename_i e; subst e; simp
    · rename_i e
      rw [List.filter_eq_nil_iff]
      intro u _
      simp only [Bool.and_eq_true, decide_eq_true_eq, not_and]
      intro e1 e2
      exact e (e2.symm.trans e1)
  have hcaged : us.filter (fun u => decide (u.uri.type = .caged)) = [] := by
    rw [List.filter_eq_nil_iff]
    intro u hu
    simpa using h u hu
  have hpw : ∀ a, (us.filter (fun u => decide (u.uri.type = a))).Pairwise (fun a b => prio cfg b ≤ prio cfg a) := by
    intro a
    rw [List.pairwise_iff_forall_sublist]
    intro x y hxy
    have hx : x ∈ us.filter (fun u => decide (u.uri.type = a)) := hxy.subset (by simp)
    have hy : y ∈ us.filter (fun u => decide (u.uri.type = a)) := hxy.subset (by simp)
    simp only [List.mem_filter, decide_eq_true_eq] at hx hy
    simp [prio, hx.2, hy.2]
  unfold order
  split
  · rename_i hgt
    refine ⟨?_, ?_, ?_, fun e => by omega⟩
    · rw [hneg]; exact List.filter_append_perm _ _
    · rw [List.pairwise_append]
      refine ⟨hpw _, hpw _, ?_⟩
      intro x hx y hy
      simp only [List.mem_filter, decide_eq_true_eq] at hx hy
      simp only [prio, hx.2, hy.2]
      omega
    · intro t
      rw [List.filter_append, hfil, hfil]
      cases t <;> simp [hcaged]
  · split
    · rename_i hgt hlt
      refine ⟨?_, ?_, ?_, fun e => by omega⟩
      · rw [hneg']; exact List.filter_append_perm _ _
      · rw [List.pairwise_append]
        refine ⟨hpw _, hpw _, ?_⟩
        intro x hx y hy
        simp only [List.mem_filter, decide_eq_true_eq] at hx hy
        simp only [prio, hx.2, hy.2]
        omega
      · intro t
        rw [List.filter_append, hfil, hfil]
        cases t <;> simp [hcaged]
    · refine ⟨List.Perm.refl _, ?_, fun _ => rfl, fun _ => rfl⟩
      rw [List.pairwise_iff_forall_sublist]
      intro x y hxy
      have hx := h x (hxy.subset (by simp))
      have hy := h y (hxy.subset (by simp))
      have he : cfg.httpPriority = cfg.rsyncPriority := by omega
      cases h1 : x.uri.type <;> cases h2 : y.uri.type <;> simp_all [prio]

/-- How a list of alternatives has to be worked through: which events there are, in which state it ends and with which
result. -/
inductive Works {S : Type} (w : World S) (recovered : S → Option Url) : List Url → S → Int → S → List Event → Prop
  /-- A URL was downloaded and the caller is done with it (or has failed for good): that is the result. -/
  | done {u us s s₁ s₂ r} (h₁ : w.dl s u = (0, s₁)) (h₂ : w.cb s₁ u = (r, s₂)) (hr : r ≤ 0) :
      Works w recovered (u :: us) s r s₂ [.tried u 0, .used u r]
  /-- A URL was downloaded, but the caller rejects it: the next one. -/
  | rejected {u us s s₁ s₂ r r' s' ev} (h₁ : w.dl s u = (0, s₁)) (h₂ : w.cb s₁ u = (r, s₂)) (hr : 0 < r)
      (h : Works w recovered us s₂ r' s' ev) : Works w recovered (u :: us) s r' s' (.tried u 0 :: .used u r :: ev)
  /-- A URL cannot be downloaded: the next one. -/
  | failed {u us s s₁ e r' s' ev} (h₁ : w.dl s u = (e, s₁)) (he : e ≠ 0) (h : Works w recovered us s₁ r' s' ev) :
      Works w recovered (u :: us) s r' s' (.tried u e :: ev)
  /-- No URL left: what the cache has. -/
  | old {u s s' r} (h₁ : recovered s = some u) (h₂ : w.cb s u = (r, s')) : Works w recovered [] s r s' [.used u r]
  /-- No URL left and nothing in the cache: ESRCH. -/
  | nothing {s} (h₁ : recovered s = none) : Works w recovered [] s 3 s []

theorem works_append {S : Type} (w : World S) (rec : S → Option Url) : ∀ (us vs : List Url) (s : S)
    (k : S → Int × S × List Event), (∀ s, Works w rec vs s (k s).1 (k s).2.1 (k s).2.2) →
    Works w rec (us ++ vs) s (andThen (downloadEach w us s) k).1 (andThen (downloadEach w us s) k).2.1
      (andThen (downloadEach w us s) k).2.2 := by
  intro us
  induction us with
  | nil =>
    intro vs s k hk
    simpa [downloadEach, andThen] using hk s
  | cons u us ih =>
    intro vs s k hk
    rw [List.cons_append]
    rcases hdl : w.dl s u with ⟨e, s₁⟩
    by_cases he : e = 0
    · subst he
      rcases hcb : w.cb s₁ u with ⟨r, s₂⟩
      have hd : download w s u = (r, s₂, [.tried u 0, .used u r]) := by simp [download, hdl, hcb]
      rw [downloadEach, hd]
      simp only
      by_cases hr : r ≤ 0
      · rw [if_pos hr]
        simp only [andThen, hr, if_true]
        exact .done hdl hcb hr
      · rw [if_neg hr]
        have := ih vs s₂ k hk
        have h2 := Works.rejected (us := us ++ vs) hdl hcb (by omega) this
        convert h2 using 1 <;> (unfold andThen; split <;> simp)
    · have hd : download w s u = (1, s₁, [.tried u e]) := by simp [download, hdl, he]
      rw [downloadEach, hd]
      simp only
      rw [if_neg (by decide)]
      have := ih vs s₁ k hk
      have h2 := Works.failed (us := us ++ vs) hdl he this
      convert h2 using 1 <;> (unfold andThen; split <;> simp)

theorem works_recovered {S : Type} (w : World S) (rec : S → Option Url) (s : S) :
    Works w rec [] s (useRecovered w rec s).1 (useRecovered w rec s).2.1 (useRecovered w rec s).2.2 := by
  unfold useRecovered
  cases h : rec s with
  | none => exact .nothing h
  | some u =>
    rcases hcb : w.cb s u with ⟨r, s'⟩
    simp only [hcb]
    exact .old h hcb

/-- **C43.** The alternatives are worked through in the order of their priorities, whatever the downloads and the caller
answer. -/
theorem C43_works {S : Type} (cfg : Cfg) (w : World S) (rec : S → Option Url) (us : List Url) (s : S) :
    Works w rec (order cfg us) s (cacheDownloadAlt cfg w rec us s).1 (cacheDownloadAlt cfg w rec us s).2.1
      (cacheDownloadAlt cfg w rec us s).2.2 := by
  unfold cacheDownloadAlt order downloadUris
  split
  · apply works_append
    intro s
    have := works_append w rec (us.filter (fun u => decide (u.uri.type = .rsync))) [] s (useRecovered w rec) (works_recovered w rec)
    rwa [List.append_nil] at this
  · split
    · apply works_append
      intro s
      have := works_append w rec (us.filter (fun u => decide (u.uri.type = .https))) [] s (useRecovered w rec) (works_recovered w rec)
      rwa [List.append_nil] at this
    · have := works_append w rec us [] s (useRecovered w rec) (works_recovered w rec)
      rwa [List.append_nil] at this

/-- The URLs that were tried. -/
def triedOf (ev : List Event) : List Url := ev.filterMap (fun | .tried u _ => some u | _ => none)

/-- Consequences: URLs are tried in order, each place of the list at most once; when the caller is done with one, nothing
else happens and the result is the caller's; when the caller never is, all URLs were tried; and the caller gets only URLs
that were just downloaded, or at the end the recovered one. -/
theorem C43_stops {S : Type} {w : World S} {rec : S → Option Url} {us : List Url} {s s' : S} {r : Int} {ev : List Event}
    (h : Works w rec us s r s' ev) :
    triedOf ev <+: us ∧
    (∀ pre u x post, ev = pre ++ .used u x :: post → x ≤ 0 → post = [] ∧ r = x) ∧
    ((∀ u x, .used u x ∈ ev → 0 < x) → triedOf ev = us ∧ 0 < r) ∧
    (∀ pre u x post, ev = pre ++ .used u x :: post →
      (∃ pre', pre = pre' ++ [.tried u 0]) ∨ (post = [] ∧ triedOf ev = us ∧ r = x)) := by
  induction h with
  | @done u us s s₁ s₂ r h₁ h₂ hr =>
    refine ⟨⟨us, by simp [triedOf]⟩, ?_, ?_, ?_⟩
    · intro pre v x post he hx
      rcases pre with _ | ⟨a, _ | ⟨b, pre⟩⟩ <;> simp_all
    · intro hall
      have := hall u r (by simp)
      omega
    · intro pre v x post he
      rcases pre with _ | ⟨a, _ | ⟨b, pre⟩⟩
      · simp at he
      · simp at he
        left; exact ⟨[], by simp [← he.1, he.2.1.1]⟩
      · simp at he
  | @rejected u us s s₁ s₂ r r' s' ev h₁ h₂ hr h ih =>
    obtain ⟨⟨t, i1⟩, i2, i3, i4⟩ := ih
    have htr : triedOf (.tried u 0 :: .used u r :: ev) = u :: triedOf ev := by simp [triedOf]
    refine ⟨⟨t, by rw [htr, ← i1]; simp⟩, ?_, ?_, ?_⟩
    · intro pre v x post he hx
      rcases pre with _ | ⟨a, _ | ⟨b, pre⟩⟩
      · simp at he
      · simp at he; omega
      · simp at he; exact i2 pre v x post he.2.2 hx
    · intro hall
      obtain ⟨j1, j2⟩ := i3 (fun v x hv => hall v x (by simp [hv]))
      exact ⟨by rw [htr, j1], j2⟩
    · intro pre v x post he
      rcases pre with _ | ⟨a, _ | ⟨b, pre⟩⟩
      · simp at he
      · simp at he
        left; exact ⟨[], by simp [← he.1, he.2.1.1]⟩
      · simp at he
        rcases i4 pre v x post he.2.2 with ⟨pre', rfl⟩ | ⟨j1, j2, j4⟩
        · left; exact ⟨a :: b :: pre', by simp⟩
        · right; exact ⟨j1, by rw [htr, j2], j4⟩
  | @failed u us s s₁ e r' s' ev h₁ he' h ih =>
    obtain ⟨⟨t, i1⟩, i2, i3, i4⟩ := ih
    have htr : triedOf (.tried u e :: ev) = u :: triedOf ev := by simp [triedOf]
    refine ⟨⟨t, by rw [htr, ← i1]; simp⟩, ?_, ?_, ?_⟩
    · intro pre v x post he hx
      rcases pre with _ | ⟨a, pre⟩
      · simp at he
      · simp at he; exact i2 pre v x post he.2 hx
    · intro hall
      obtain ⟨j1, j2⟩ := i3 (fun v x hv => hall v x (by simp [hv]))
      exact ⟨by rw [htr, j1], j2⟩
    · intro pre v x post he
      rcases pre with _ | ⟨a, pre⟩
      · simp at he
      · simp at he
        rcases i4 pre v x post he.2 with ⟨pre', rfl⟩ | ⟨j1, j2, j4⟩
        · left; exact ⟨a :: pre', by simp⟩
        · right; exact ⟨j1, by rw [htr, j2], j4⟩
  | @old u s s' r h₁ h₂ =>
    refine ⟨by simp [triedOf], ?_, ?_, ?_⟩
    · intro pre v x post he hx
      rcases pre with _ | ⟨a, pre⟩ <;> simp_all
    · intro hall
      exact ⟨by simp [triedOf], hall u r (by simp)⟩
    · intro pre v x post he
      rcases pre with _ | ⟨a, pre⟩
      · simp at he; right; exact ⟨he.2, by simp [triedOf], he.1.2⟩
      · simp at he
  | nothing h₁ =>
    refine ⟨by simp [triedOf], ?_, ?_, ?_⟩
    · intro pre v x post he; simp at he
    · intro _; exact ⟨by simp [triedOf], by decide⟩
    · intro pre v x post he; simp at he

/-- https first; its download fails; the two rsync URLs: the first one is rejected by the caller, the second one is used. -/
example :
    let u := fun g t => (⟨⟨txt g, [], t⟩, false⟩ : Url)
    cacheDownloadAlt ⟨true, true, 50, 60⟩ ⟨fun s v => (if v.uri.type = .https then 5 else 0, s + 1),
        fun s _ => (if s = 2 then 1 else 0, s)⟩ (fun _ => none)
      [u "rsync://1" .rsync, u "https://2" .https, u "rsync://3" .rsync] 0 =
    (0, 3, [.tried (u "https://2" .https) 5, .tried (u "rsync://1" .rsync) 0, .used (u "rsync://1" .rsync) 1,
      .tried (u "rsync://3" .rsync) 0, .used (u "rsync://3" .rsync) 0]) := by decide +kernel

end Verif.Cache
