import Verif.Web.Lemmas
/-
C199: What is downloaded is what the server has. C200: Downloads are authenticated and bounded.
-/
namespace Verif.Web
open Verif.Rtr (Byte)
open Verif.Net (Answer Chunk Fs httpDownload doRetries)

/-! ### C199 -/

/-- How documents arrive: in one piece or in many. -/
structure Cut (cut : List Byte → List (List Byte)) : Prop where
  whole : ∀ d, (cut d).flatten = d
  pieces : ∀ d, ∀ x ∈ cut d, x ≠ []

/-- The attempts that aren't answered by the server fail. -/
structure Event.Sane (e : Event) : Prop where
  fails : ∀ j a, (e.tries j).fails = some a → Fails a
  pieces : ∀ j a, (e.tries j).fails = some a → ∀ c ∈ a.chunks, c.data ≠ []

/-- The downloads are one after another: the server answers them in order. -/
def InOrder (es : List Event) : Prop := es.Pairwise fun a b => ∀ i j, (a.tries i).time ≤ (b.tries j).time

/-- Nothing is published between the server's answer and the time that the file gets: in the second of the local clock in which the download ends, or before. -/
def NoRace (p : Pubs) (e : Event) : Prop := ∀ j, ∀ y ∈ p, (e.tries j).time < y.1 → e.ends < ((y.1 / 1000 : Nat) : Int)

/-- The file is one of the contents that the server had while it was downloaded. -/
def Current (p : Pubs) (e : Event) (f : Option File) : Prop := ∃ k x, p.last (e.tries k).time = some x ∧ f.map File.content = some x.2

/-- The local file is what the server had at `t0`, and what it publishes later has a later date than the file's. -/
def Inv (p : Pubs) (es : List Event) (f : Option File) : Prop :=
  ∀ g, f = some g → ∃ t0 x, p.last t0 = some x ∧ g.content = x.2 ∧ (∀ e ∈ es, ∀ j, t0 ≤ (e.tries j).time) ∧ ∀ y ∈ p, t0 < y.1 → g.mtime < ((y.1 / 1000 : Nat) : Int)

theorem answers_pieces {p : Pubs} {cut : List Byte → List (List Byte)} (hc : Cut cut) {e : Event} (he : e.Sane) (cond : Option Int) (j : Nat) :
    ∀ c ∈ (e.answers p cut cond j).chunks, c.data ≠ [] := by
  unfold Event.answers
  cases hf : (e.tries j).fails with
  | some a => exact he.pieces j a hf
  | none =>
    simp only
    unfold Pubs.respond
    cases p.last (e.tries j).time with
    | none => intro c h; cases h
    | some x =>
      simp only
      split
      · intro c h; cases h
      · intro c h
        simp only [List.mem_map] at h
        obtain ⟨d, hd, rfl⟩ := h
        exact hc.pieces _ d hd

theorem step {accepts : Opt → Int → Bool} (ha : Accepting accepts) (c : Conf) (count : Nat) (src : List Byte) {p : Pubs} (hp : p.Ordered)
    {cut : List Byte → List (List Byte)} (hc : Cut cut) {e : Event} {es : List Event} (ho : InOrder (e :: es)) (he : e.Sane) (hr : NoRace p e) {f : Option File}
    (hi : Inv p (e :: es) f) :
    let r := download accepts c count src (e.answers p cut) e.fs e.ends f
    Inv p es r.2 ∧ (r.1 = 0 → Current p e r.2) := by
  intro r
  have hlater : ∀ k, ∀ e' ∈ es, ∀ j, (e.tries k).time ≤ (e'.tries j).time := fun k e' he' j => (List.pairwise_cons.1 ho).1 e' he' k j
  have hweak : Inv p es f := fun g hg => by
    obtain ⟨t0, x, h1, h2, h3, h4⟩ := hi g hg
    exact ⟨t0, x, h1, h2, fun e' he' => h3 e' (List.mem_cons_of_mem _ he'), h4⟩
  by_cases hz : r.1 = 0
  · -- the attempt that decides
    have hz' : (httpDownload c.maxFileSize count (e.answers p cut (fetchHandle accepts c src (getIms (statOf f)).2).condition)
        { e.fs with stat := (getIms (statOf f)).1 } (f.map File.content)).1 = 0 := hz
    obtain ⟨k, _, h1, h2, h3, h4, h5⟩ := download_ok (fun j => answers_pieces hc he _ j) hz'
    have hr2 : r.2 = if (httpDownload c.maxFileSize count (e.answers p cut (fetchHandle accepts c src (getIms (statOf f)).2).condition)
        { e.fs with stat := (getIms (statOf f)).1 } (f.map File.content)).1 = 0 ∧ (httpDownload c.maxFileSize count (e.answers p cut (fetchHandle accepts c src (getIms (statOf f)).2).condition)
        { e.fs with stat := (getIms (statOf f)).1 } (f.map File.content)).2.2 = true then ((httpDownload c.maxFileSize count (e.answers p cut (fetchHandle accepts c src (getIms (statOf f)).2).condition)
        { e.fs with stat := (getIms (statOf f)).1 } (f.map File.content)).2.1.final.map fun b => ⟨b, e.ends⟩) else f := rfl
    -- it's the server's
    have hsrv : (e.tries k).fails = none := by
      by_contra hn
      obtain ⟨a, haf⟩ := Option.ne_none_iff_exists'.1 hn
      have hk : e.answers p cut (fetchHandle accepts c src (getIms (statOf f)).2).condition k = a := by unfold Event.answers; rw [haf]
      rw [hk] at h1 h2 h3 h4
      rcases he.fails k a haf with h | h | h | h
      · exact h h2
      · omega
      · rw [h1] at h; cases h
      · rw [h3] at h; cases h
    have hk : e.answers p cut (fetchHandle accepts c src (getIms (statOf f)).2).condition k = p.respond cut (e.tries k).time (fetchHandle accepts c src (getIms (statOf f)).2).condition := by
      unfold Event.answers; rw [hsrv]
    rw [hk] at h4 h5
    rw [hr2]
    generalize httpDownload c.maxFileSize count (e.answers p cut (fetchHandle accepts c src (getIms (statOf f)).2).condition)
        { e.fs with stat := (getIms (statOf f)).1 } (f.map File.content) = D at h5 hz' ⊢
    unfold Pubs.respond at h4 h5
    cases hl : p.last (e.tries k).time with
    | none => rw [hl] at h4; exact absurd (show (404 : Int) < 400 from h4) (by decide)
    | some x =>
      rw [hl] at h4 h5
      simp only at h4 h5
      by_cases hcond : ∃ v, (fetchHandle accepts c src (getIms (statOf f)).2).condition = some v ∧ ((x.1 / 1000 : Nat) : Int) ≤ v
      · rw [if_pos hcond] at h5
        rcases h5 with ⟨_, h6⟩ | ⟨h6, _⟩
        · rw [if_neg (by rw [h6]; simp)]
          refine ⟨hweak, fun _ => ?_⟩
          obtain ⟨v, hv1, hv2⟩ := hcond
          rw [handle_condition ha] at hv1
          cases hf : f with
          | none => rw [hf] at hv1; simp [statOf, getIms] at hv1
          | some g =>
            have hv : v = g.mtime := by
              rw [hf] at hv1
              by_cases hm : 0 < (getIms (statOf (some g))).2
              · rw [if_pos hm] at hv1; exact (Option.some.inj hv1).symm
              · rw [if_neg hm] at hv1; cases hv1
            obtain ⟨t0, x0, g1, g2, g3, g4⟩ := hi g hf
            have hle : x.1 ≤ t0 := by
              by_contra hgt
              have := g4 x (last_mem hl).1 (by omega)
              omega
            have heq := last_eq hp (g3 e List.mem_cons_self k) hl hle
            rw [g1] at heq
            have hx := Option.some.inj heq
            exact ⟨k, x, hl, by rw [← hx, ← g2]; rfl⟩
        · exact absurd rfl h6
      · rw [if_neg hcond] at h5
        rcases h5 with ⟨h6, _⟩ | ⟨_, h6, h7⟩
        · exact absurd (show (200 : Int) = 304 from h6) (by decide)
        · rw [if_pos ⟨hz', h6⟩, h7, body_map, hc.whole]
          simp only [List.take_length, Option.map_some]
          refine ⟨fun g hg => ?_, fun _ => ⟨k, x, hl, rfl⟩⟩
          cases hg
          exact ⟨(e.tries k).time, x, hl, rfl, hlater k, hr k⟩
  · refine ⟨?_, fun h => absurd h hz⟩
    have : r.2 = f := if_neg (fun h => hz h.1)
    rw [this]; exact hweak

theorem run_inv {accepts : Opt → Int → Bool} (ha : Accepting accepts) (c : Conf) (count : Nat) (src : List Byte) {p : Pubs} (hp : p.Ordered)
    {cut : List Byte → List (List Byte)} (hc : Cut cut) : ∀ (es : List Event) (f : Option File), InOrder es → (∀ e ∈ es, e.Sane ∧ NoRace p e) → Inv p es f →
    ∀ (i : Nat) (e : Event) (r : Int × Option File), es[i]? = some e → (run accepts c count src p cut es f)[i]? = some r → r.1 = 0 → Current p e r.2
  | [], _, _, _, _, i, e, r, h, _, _ => by simp at h
  | e0 :: es, f, ho, hs, hi, i, e, r, h, hr, hz => by
    have hs0 := step ha c count src hp hc ho (hs e0 List.mem_cons_self).1 (hs e0 List.mem_cons_self).2 hi
    cases i with
    | zero =>
      simp only [List.getElem?_cons_zero, Option.some.injEq] at h
      simp only [run, List.getElem?_cons_zero, Option.some.injEq] at hr
      subst h; subst hr
      exact hs0.2 hz
    | succ i =>
      simp only [List.getElem?_cons_succ] at h
      simp only [run, List.getElem?_cons_succ] at hr
      exact run_inv ha c count src hp hc es _ (List.pairwise_cons.1 ho).2 (fun e he => hs e (List.mem_cons_of_mem _ he)) hs0.1 i e r h hr hz

/-- **C199 (partial).** A URL is downloaded again and again, each time at any time and with any failures. If nothing is published between an answer and the
second — of the validator's clock — in which that download ends, then after every download without an error the file is what the server has. -/
theorem C199_partial {accepts : Opt → Int → Bool} (ha : Accepting accepts) (c : Conf) (count : Nat) (src : List Byte) {p : Pubs} (hp : p.Ordered)
    {cut : List Byte → List (List Byte)} (hc : Cut cut) {es : List Event} (ho : InOrder es) (hs : ∀ e ∈ es, e.Sane ∧ NoRace p e)
    {i : Nat} {e : Event} {r : Int × Option File} (he : es[i]? = some e) (hr : (run accepts c count src p cut es none)[i]? = some r) (hz : r.1 = 0) : Current p e r.2 :=
  run_inv ha c count src hp hc es none ho hs (fun _ h => by cases h) i e r he hr hz

/-- "Not modified". -/
theorem download_304 (max count : Nat) (fs : Fs) (final : Option (List Byte)) (ht : fs.tmpfile = 0) (hs : fs.stat = 0) (answers : Nat → Answer)
    (h : answers 0 = ⟨true, [], .ok, true, 304, 0⟩) : httpDownload max count answers fs final = (0, ⟨none, final⟩, false) := by
  have h0 : doRetries max count answers 0 none false = (⟨0, none, false⟩, 1) := by
    rw [doRetries, h]; rfl
  unfold httpDownload
  rw [if_neg (by rw [ht]; decide), if_neg (by rw [hs]; decide), h0]
  rfl

/-- A download that the server answers at once, at `t`. -/
def at_ (t : Nat) (ends : Int) : Event := ⟨fun _ => ⟨t, none⟩, ends, ⟨0, 0, 0, 0⟩⟩

/-- **C199 (refuted, in general).** As long as the date of what the server has isn't after the file's — that is when it was downloaded, according to the local clock,
not the date that the server gave — nothing is downloaded, and there's no error; whatever the file and the server have. -/
theorem C199_stale {accepts : Opt → Int → Bool} (ha : Accepting accepts) (c : Conf) (count : Nat) (src : List Byte) (p : Pubs) (cut : List Byte → List (List Byte))
    (f : File) (hm : 0 < f.mtime) (t : Nat) (ends : Int) (x : Nat × List Byte) (hx : p.last t = some x) (hd : ((x.1 / 1000 : Nat) : Int) ≤ f.mtime) :
    download accepts c count src ((at_ t ends).answers p cut) (at_ t ends).fs ends (some f) = (0, some f) := by
  have h304 : (at_ t ends).answers p cut (fetchHandle accepts c src (getIms (statOf (some f))).2).condition 0 = ⟨true, [], .ok, true, 304, 0⟩ := by
    show p.respond cut t _ = _
    unfold Pubs.respond
    rw [hx, handle_condition ha]
    have : 0 < (getIms (statOf (some f))).2 := hm
    simp only [this, if_true]
    rw [if_pos ⟨f.mtime, rfl, hd⟩]
  have hdl : ∀ (F : Fs), F.tmpfile = 0 → F.stat = 0 → httpDownload c.maxFileSize count ((at_ t ends).answers p cut (fetchHandle accepts c src (getIms (statOf (some f))).2).condition) F
      ((some f).map File.content) = (0, ⟨none, (some f).map File.content⟩, false) := fun F h1 h2 => download_304 _ _ F _ h1 h2 _ h304
  unfold download
  simp only
  rw [hdl _ rfl rfl]
  rfl

theorem curl_accepting : Accepting curlAccepts := by
  intro o v h0 h1 h2
  cases o <;> simp_all [curlAccepts]
  omega

/-- The defaults. -/
def conf0 : Conf := ⟨some [], 10, 30, 900, 100000, 10, 1000000000, none⟩
/-- The server's file has a content at 1.0 seconds, and another one at 1.5 seconds. -/
def pubs0 : Pubs := [(1000, [65#8]), (1500, [66#8])]
def one (d : List Byte) : List (List Byte) := if d = [] then [] else [d]

theorem one_cut : Cut one := ⟨fun d => by unfold one; split <;> simp_all, fun d x h => by unfold one at h; split at h <;> simp_all⟩

/-- The first one is downloaded at 1.2 seconds, by a validator whose clock is that of the server. -/
theorem first_download : download curlAccepts conf0 2 [] ((at_ 1200 1).answers pubs0 one) (at_ 1200 1).fs 1 none = (0, some ⟨[65#8], 1⟩) := by
  have hr : (at_ 1200 1).answers pubs0 one (fetchHandle curlAccepts conf0 [] 0).condition = fun _ => ⟨true, [⟨[65#8], 0, 1⟩], .ok, true, 200, 1⟩ := by
    funext j
    rw [handle_condition curl_accepting]
    show pubs0.respond one 1200 (if (0 : Int) < 0 then some 0 else none) = _
    decide
  have h0 : doRetries 1000000000 2 (fun _ => (⟨true, [⟨[65#8], 0, 1⟩], .ok, true, 200, 1⟩ : Answer)) 0 none false = (⟨0, some [65#8], true⟩, 1) := by
    rw [doRetries]; decide
  have hd : httpDownload 1000000000 2 (fun _ => (⟨true, [⟨[65#8], 0, 1⟩], .ok, true, 200, 1⟩ : Answer)) ⟨0, 0, 0, 0⟩ none = (0, ⟨none, some [65#8]⟩, true) := by
    unfold httpDownload; rw [h0]; rfl
  unfold download
  simp only [statOf, getIms, hr]
  show _ = _
  have : conf0.maxFileSize = 1000000000 := rfl
  rw [this]
  show (let r := httpDownload 1000000000 2 (fun _ => (⟨true, [⟨[65#8], 0, 1⟩], .ok, true, 200, 1⟩ : Answer)) ⟨0, 0, 0, 0⟩ none; (r.1, if r.1 = 0 ∧ r.2.2 then r.2.1.final.map fun b => (⟨b, 1⟩ : File) else none)) = _
  rw [hd]; rfl

/-- **C199 (refuted).** The validator downloads the file at 1.2 seconds. It's modified at 1.5 seconds. No later download, whenever it is, gets the modification; and
none has an error. -/
theorem C199_refuted (t : Nat) (ht : 1500 ≤ t) (ends : Int) :
    run curlAccepts conf0 2 [] pubs0 one [at_ 1200 1, at_ t ends] none = [(0, some ⟨[65#8], 1⟩), (0, some ⟨[65#8], 1⟩)] ∧
    pubs0.last t = some (1500, [66#8]) := by
  have hl : pubs0.last t = some (1500, [66#8]) := by
    have h1 : 1000 ≤ t := by omega
    simp [pubs0, Pubs.last, h1, ht]
  refine ⟨?_, hl⟩
  have hst := C199_stale curl_accepting conf0 2 [] pubs0 one ⟨[65#8], 1⟩ (by decide) t ends _ hl (by decide)
  show [download curlAccepts conf0 2 [] ((at_ 1200 1).answers pubs0 one) (at_ 1200 1).fs 1 none,
    download curlAccepts conf0 2 [] ((at_ t ends).answers pubs0 one) (at_ t ends).fs ends (download curlAccepts conf0 2 [] ((at_ 1200 1).answers pubs0 one) (at_ 1200 1).fs 1 none).2] = _
  rw [first_download, hst]

/-- C199_partial's hypotheses are met by downloads at 1.2 seconds, which end in second 1, and at 3 seconds, of a file that is modified at 2.5 seconds. -/
example : InOrder [at_ 1200 1, at_ 3000 3] ∧ (∀ e ∈ [at_ 1200 1, at_ 3000 3], e.Sane ∧ NoRace [(1000, [65#8]), (2500, [66#8])] e) ∧
    Pubs.Ordered [(1000, [65#8]), (2500, [66#8])] ∧ Cut one ∧ Accepting curlAccepts := by
  refine ⟨by simp [InOrder, at_], ?_, by simp [Pubs.Ordered], one_cut, curl_accepting⟩
  intro e he
  simp only [List.mem_cons, List.not_mem_nil, or_false] at he
  rcases he with rfl | rfl
  · exact ⟨⟨fun j a h => by simp [at_] at h, fun j a h => by simp [at_] at h⟩, fun j y hy h => by
      simp only [List.mem_cons, List.not_mem_nil, or_false] at hy
      rcases hy with rfl | rfl
      · simp [at_] at h
      · decide⟩
  · exact ⟨⟨fun j a h => by simp [at_] at h, fun j a h => by simp [at_] at h⟩, fun j y hy h => by
      simp only [List.mem_cons, List.not_mem_nil, or_false] at hy
      rcases hy with rfl | rfl <;> simp [at_] at h⟩

/-! ### C200 -/

/-- A configuration whose numbers libcurl accepts. -/
structure Conf.Usual (c : Conf) : Prop where
  transfer : c.transferTimeout ≤ 2147483
  connect : 1 ≤ c.connectTimeout ∧ c.connectTimeout ≤ 2147483
  redirs : c.maxRedirs ≤ 32767

/-- **C200 (partial).** In a transfer that ends without errors: every server that was asked with HTTPS showed a certificate of its name, of a trusted authority; there
weren't more redirections than configured; neither the connection nor the transfer took longer than configured; the response isn't an error, and didn't announce more
bytes than configured; and every request was for the same condition. -/
theorem C200_partial {accepts : Opt → Int → Bool} (ha : Accepting accepts) {c : Conf} (hc : c.Usual) (src : List Byte) {ims : Int} {t : Transfer}
    (h : t.Possible (fetchHandle accepts c src ims)) :
    (∀ x ∈ t.first :: t.redirects, x.scheme = .https → x.authentic = true ∧ x.named = true) ∧
    t.redirects.length ≤ c.maxRedirs ∧
    t.connect ≤ 1000 * c.connectTimeout ∧
    (c.transferTimeout ≠ 0 → t.time ≤ 1000 * c.transferTimeout) ∧
    t.code < 400 ∧
    (∀ n, t.declared = some n → c.maxFileSize ≠ 0 → n ≤ c.maxFileSize) ∧
    (∀ x ∈ t.first :: t.redirects, x.condition = if 0 < ims then some ims else none) := by
  have a1 := ha .sslVerifyPeer 1 (by decide) (by simp) (by simp)
  have a2 := ha .sslVerifyHost 2 (by decide) (by simp) (by simp)
  have a3 := ha .maxRedirs c.maxRedirs (by omega) (by simp) (fun _ => by have := hc.redirs; omega)
  have a4 := ha .connectTimeout c.connectTimeout (by omega) (fun _ => by have := hc.connect; omega) (by simp)
  have a5 := ha .timeout c.transferTimeout (by omega) (fun _ => by have := hc.transfer; omega) (by simp)
  have a6 := ha .failOnError 1 (by decide) (by simp) (by simp)
  have a7 := ha .maxFileSize c.maxFileSize (by omega) (by simp) (by simp)
  refine ⟨?_, ?_, ?_, ?_, ?_, ?_, ?_⟩
  · have key : ∀ x, HopOk (fetchHandle accepts c src ims) x → x.scheme = .https → x.authentic = true ∧ x.named = true := by
      intro x hx hs
      obtain ⟨h1, h2⟩ := hx (by rw [hs]; simp)
      rw [handle_long] at h1 h2
      simp only [a1, a2, if_true, Option.getD_some] at h1 h2
      exact ⟨h1 (by decide), h2 trivial⟩
    intro x hx
    rcases List.mem_cons.1 hx with rfl | hx
    · exact key _ h.firstOk
    · exact key _ (h.hopsOk x hx)
  · have := h.redirs
    rw [handle_long] at this
    simp only [a3, if_true, Option.getD_some] at this
    have := this (by omega)
    omega
  · have := h.connect
    rw [handle_long] at this
    simp only [a4, if_true, Option.getD_some] at this
    have hz := hc.connect.1
    rw [if_neg (by omega)] at this
    omega
  · intro hz
    have := h.time
    rw [handle_long] at this
    simp only [a5, if_true, Option.getD_some] at this
    have := this (by omega)
    omega
  · have := h.code
    rw [handle_long] at this
    simp only [a6, if_true, Option.getD_some] at this
    exact this (by decide)
  · intro n hn hz
    have := h.size n hn
    rw [handle_long] at this
    simp only [a7, if_true, Option.getD_some] at this
    have := this (by omega)
    omega
  · intro x hx
    rw [h.conditions x hx, handle_condition ha]

/-- **C200.** The rest of the request is the configured one. -/
theorem C200_request {accepts : Opt → Int → Bool} (ha : Accepting accepts) (c : Conf) (src : List Byte) (ims : Int) :
    (fetchHandle accepts c src ims).str .url = some src ∧ (fetchHandle accepts c src ims).str .userAgent = c.userAgent ∧
    (fetchHandle accepts c src ims).str .caPath = c.caPath ∧ (fetchHandle accepts c src ims).long .lowSpeedLimit = some (c.lowSpeedLimit : Int) ∧
    (fetchHandle accepts c src ims).long .lowSpeedTime = some (c.lowSpeedTime : Int) ∧ (fetchHandle accepts c src ims).long .httpGet = some 1 ∧
    (fetchHandle accepts c src ims).long .noSignal = some 1 ∧ (fetchHandle accepts c src ims).long .followLocation = some 1 := by
  have b1 := ha .lowSpeedLimit c.lowSpeedLimit (by omega) (by simp) (by simp)
  have b2 := ha .lowSpeedTime c.lowSpeedTime (by omega) (by simp) (by simp)
  have b3 := ha .httpGet 1 (by decide) (by simp) (by simp)
  have b4 := ha .noSignal 1 (by decide) (by simp) (by simp)
  have b5 := ha .followLocation 1 (by decide) (by simp) (by simp)
  refine ⟨?_, ?_, ?_, by rw [handle_long]; simp [b1], by rw [handle_long]; simp [b2], by rw [handle_long]; simp [b3], by rw [handle_long]; simp [b4], by rw [handle_long]; simp [b5]⟩
  · simp [fetchHandle, str_str]
  · unfold fetchHandle httpEasyInit
    by_cases hi : ims > 0 <;> cases hu : c.userAgent <;> simp [hi, str_str, str_long, Handle.new]
  · unfold fetchHandle httpEasyInit
    by_cases hi : ims > 0 <;> cases hu : c.caPath <;> simp [hi, str_str, str_long, Handle.new]

/-- A redirection to a server without HTTPS. -/
def hijack : Transfer := ⟨⟨.https, true, true, none⟩, [⟨.http, false, false, none⟩], 10, 100, 200, none⟩

/-- **C200 (refuted).** Nothing restricts the protocols of the redirections: with the default configuration, a server that is asked with HTTPS can redirect to one that
isn't authenticated. -/
theorem C200_refuted : hijack.Possible (fetchHandle curlAccepts conf0 [] 0) ∧ hijack.first.scheme = .https ∧
    ∃ x ∈ hijack.redirects, x.scheme = .http ∧ x.authentic = false := by
  have hl := handle_long curlAccepts conf0 [] 0
  refine ⟨⟨?_, ?_, ?_, ?_, ?_, ?_, ?_, ?_, ?_, ?_, ?_⟩, rfl, _, List.mem_cons_self, rfl, rfl⟩
  · intro _; exact ⟨fun _ => rfl, fun _ => rfl⟩
  · intro x hx h
    simp only [hijack, List.mem_cons, List.not_mem_nil, or_false] at hx
    subst hx; simp at h
  · rw [hl]; decide
  · intro x hx
    simp only [hijack, List.mem_cons, List.not_mem_nil, or_false] at hx
    subst hx; rw [hl]; decide
  · intro _; rw [hl]; decide
  · intro _; rw [hl]; decide
  · rw [hl]; decide
  · intro _; rw [hl]; decide
  · intro _; decide
  · intro n h; cases h
  · intro x hx
    rw [handle_condition curl_accepting]
    simp only [hijack, List.mem_cons, List.not_mem_nil, or_false] at hx
    rcases hx with rfl | rfl <;> rfl

/-- A transfer that takes `ms` milliseconds. -/
def slow (ms : Nat) : Transfer := ⟨⟨.https, true, true, none⟩, [], 10, ms, 200, none⟩

/-- **C200 (refuted).** `http.transfer-timeout` can be up to 4294967295, but libcurl refuses 2147484: then there is no limit, and a transfer can take any time. -/
theorem C200_timeout_refuted (ms : Nat) : (slow ms).Possible (fetchHandle curlAccepts { conf0 with transferTimeout := 2147484 } [] 0) := by
  have hl := handle_long curlAccepts { conf0 with transferTimeout := 2147484 } [] 0
  refine ⟨?_, ?_, ?_, ?_, ?_, ?_, ?_, ?_, ?_, ?_, ?_⟩
  · intro _; exact ⟨fun _ => rfl, fun _ => rfl⟩
  · intro x hx; cases hx
  · rw [hl]; exact (by decide : ((15 : Int)).toNat &&& 2 ≠ 0)
  · intro x hx; cases hx
  · intro h; exact absurd rfl h
  · intro _; rw [hl]; exact (by decide : (0 : Int) ≤ 10)
  · rw [hl]; exact (by decide : (10 : Int) ≤ 1000 * 30)
  · rw [hl]; intro h; exact absurd (by decide) h
  · intro _; exact (by decide : (200 : Int) < 400)
  · intro n h; cases h
  · intro x hx
    rw [handle_condition curl_accepting]
    simp only [slow, List.mem_cons, List.not_mem_nil, or_false] at hx
    subst hx; rfl

/-- C200_partial's hypotheses are met by the default configuration, and a transfer with a redirection. -/
example : conf0.Usual ∧ Accepting curlAccepts ∧ hijack.Possible (fetchHandle curlAccepts conf0 [] 0) := ⟨⟨by decide, by decide, by decide⟩, curl_accepting, C200_refuted.1⟩

end Verif.Web
