import Verif.Rrdp.Example
/-
C46, C79, C80, C81, C82: what happens after failures, and between repositories.
-/
namespace Verif.Rrdp
open Verif.Res (Byte)
open Verif.Uri
open Verif.Cache (Url Cfg Op Cache)

/-! ### C46 -/

namespace Ex

/-- The server of the example, when the second snapshot and the delta cannot be downloaded, and which says, from the fifth request on,
that its notification is not newer than the one it gave before. -/
def httpBroken (t : Nat) (u : Url) : Http :=
  if t < 3 ∧ u.uri.global = txt "https://a/n" then http t u
  else if u.uri.global = txt "https://a/n" then ⟨0, t + 200, false, []⟩
  else if u.uri.global = txt "https://a/s1" then http t u
  else ⟨5, t + 10, false, []⟩

def envBroken : Env := { env with http := httpBroken }

def b1 : World := (rrdpUpdate envBroken w0 u).2
def b2 : World := (rrdpUpdate envBroken (cycle b1 12) u).2
def b3 : World := (rrdpUpdate envBroken (cycle b2 100) u).2

end Ex

/-- **C46 does not hold.** Three cycles. The first one gets the repository. In the second one there is a newer notification, and
neither delta nor snapshot can be downloaded: the update fails, the files are gone. In the third one the server says that its
notification has not changed since; the update succeeds, and the repository is empty. -/
theorem C46_refuted : ∃ (env : Env) (w : World) (u : Uri) (t₂ t₃ : Int) (p : List Byte),
    (rrdpUpdate env w u).1 = .ok ∧ (rrdpUpdate env w u).2.disk p ≠ none ∧
    (let w₂ := Ex.cycle (rrdpUpdate env w u).2 t₂
     (rrdpUpdate env w₂ u).1 = .err ∧ (rrdpUpdate env w₂ u).2.disk p = none ∧
     (let w₃ := Ex.cycle (rrdpUpdate env w₂ u).2 t₃
      w₃.cache.tal = w.cache.tal ∧ w₃.tick < (rrdpUpdate env w₃ u).2.tick ∧
      (rrdpUpdate env w₃ u).1 = .ok ∧ (rrdpUpdate env w₃ u).2.disk p = none ∧
      (rrdpUpdate env w₃ u).2.disk (Ex.g) = none)) := by
  refine ⟨Ex.envBroken, Ex.w0, Ex.u, 12, 100, Ex.f, ?_⟩
  decide +kernel

/-- **C46, why.** For every server and every local state: if there is a readable local notification and the server has nothing newer,
then the update succeeds and leaves all files as they are, in whatever state the repository is. -/
theorem C46_never_retried {env : Env} {w w1 : World} {u : Uri} {nf : Notif} (hty : u.type = .https)
    (hst : env.statFails w.disk u.loc = false) (hloc : w.disk u.loc ≠ none)
    (hnf : parseNotification env w.cache.tal w.disk u = (.ok, nf)) (hget : cacheGet env w ⟨u, true⟩ = some (0, false, w1)) :
    rrdpUpdate env w u = (.ok, w1) ∧ w1.disk = w.disk := by
  refine ⟨?_, (cacheGet_spec (by simp [hty]) hget).2.2.1 rfl⟩
  unfold rrdpUpdate
  simp only
  unfold getMetadata
  rw [if_neg (by simp [hst]), if_neg hloc, hnf]
  simp only
  rw [hget]
  simp

/-- **C46, partial.** An update that fails before there is a new notification changes no file: the next cycle starts from the same
state, so it is retried. What is missing: failures after that, for which it is false. -/
theorem C46_partial {env : Env} {w w' : World} {u : Uri} (hty : u.type = .https) (h : rrdpUpdate env w u = (.err, w'))
    (hget : ∀ e w1, cacheGet env w ⟨u, true⟩ ≠ some (e, true, w1)) : w'.disk = w.disk := by
  unfold rrdpUpdate at h
  simp only at h
  split at h
  · split at h
    · simp at h
    · rename_i e ch w1 hg
      cases ch with
      | true => exact absurd hg (hget e w1)
      | false =>
        have hd := (cacheGet_spec (by simp [hty]) hg).2.2.1 rfl
        split at h
        · simp only [Prod.mk.injEq, true_and] at h; rw [← h]; exact hd
        · simp at h
  · simp only [Prod.mk.injEq] at h; rw [← h.2]

/-- The hypothesis is met: the server cannot be reached. -/
example : ∃ w', rrdpUpdate { Ex.env with http := fun _ _ => ⟨5, 10, false, []⟩ } (Ex.cycle Ex.w1 100) Ex.u = (.err, w') ∧ w'.disk Ex.f = some (txt "F1") := by
  refine ⟨_, Prod.ext (by decide +kernel) rfl, by decide +kernel⟩

/-! ### C79 -/

/-- **C79, why.** For every server: while the local notification cannot be read, updates fail, nothing is requested, and nothing
changes. -/
theorem C79_stuck {env : Env} {w : World} {u : Uri} (hloc : w.disk u.loc ≠ none)
    (hbad : (parseNotification env w.cache.tal w.disk u).1 = .err) : rrdpUpdate env w u = (.err, w) := by
  have hm : getMetadata env w.cache.tal w.disk u = (.err, none) := by
    unfold getMetadata
    by_cases hs : env.statFails w.disk u.loc = true
    · rw [if_pos hs]
    · rw [if_neg hs, if_neg hloc]
      rcases hp : parseNotification env w.cache.tal w.disk u with ⟨r, nf⟩
      rw [hp] at hbad
      simp only at hbad
      subst hbad
      rfl
  unfold rrdpUpdate
  simp only
  rw [hm]

namespace Ex

/-- The second notification comes damaged, once. -/
def httpDamaged (t : Nat) (u : Url) : Http :=
  if t = 2 ∧ u.uri.global = txt "https://a/n" then ⟨0, t + 10, true, txt "damaged"⟩ else http t u

def envDamaged : Env := { env with http := httpDamaged }

/-- The world after `n` more cycles, which begin at these times. -/
def cycles (env : Env) (u : Uri) (ts : Nat → Int) (w : World) : Nat → World
  | 0 => w
  | n + 1 => (rrdpUpdate env (cycle (cycles env u ts w n) (ts n)) u).2

end Ex

/-- **C79 does not hold.** The server gives a good notification, then, once, a damaged one. Even if it gives good ones from then on,
all updates fail, and none asks for it. -/
theorem C79_refuted : ∃ (env : Env) (w : World) (u : Uri) (t₂ : Int),
    (rrdpUpdate env w u).1 = .ok ∧
    (let w₂ := Ex.cycle (rrdpUpdate env w u).2 t₂
     (rrdpUpdate env w₂ u).1 = .err ∧
     (∀ t, (env.http (3 + t) ⟨u, true⟩) = ⟨0, t + 13, true, txt "N2"⟩) ∧
     ∀ (n : Nat) (ts : Nat → Int),
      (rrdpUpdate env (Ex.cycle (Ex.cycles env u ts (rrdpUpdate env w₂ u).2 n) (ts n)) u).1 = .err ∧
      (Ex.cycles env u ts (rrdpUpdate env w₂ u).2 n).tick = 3) := by
  refine ⟨Ex.envDamaged, Ex.w0, Ex.u, 12, ?_⟩
  refine ⟨by decide +kernel, by decide +kernel, ?_, ?_⟩
  · intro t
    show Ex.httpDamaged (3 + t) ⟨Ex.u, true⟩ = _
    unfold Ex.httpDamaged
    rw [if_neg (by omega)]
    unfold Ex.http
    rw [if_pos (show (⟨Ex.u, true⟩ : Url).uri.global = txt "https://a/n" from rfl), if_neg (by omega)]
    congr 1
    push_cast
    ring
  · intro n ts
    generalize hws : Ex.cycles Ex.envDamaged Ex.u ts
      (rrdpUpdate Ex.envDamaged (Ex.cycle (rrdpUpdate Ex.envDamaged Ex.w0 Ex.u).2 12) Ex.u).2 = ws
    have key : ∀ n, (ws n).disk Ex.u.loc = some (txt "damaged") ∧ (ws n).tick = 3 ∧
        (parseNotification Ex.envDamaged (txt "t") (ws n).disk Ex.u).1 = .err ∧ (ws n).cache.tal = txt "t" := by
      intro n
      induction n with
      | zero => rw [← hws]; unfold Ex.cycles; decide +kernel
      | succ k ih =>
        obtain ⟨h1, h2, h3, h4⟩ := ih
        have hstep : rrdpUpdate Ex.envDamaged (Ex.cycle (ws k) (ts k)) Ex.u = (.err, Ex.cycle (ws k) (ts k)) :=
          C79_stuck (by show (ws k).disk _ ≠ none; rw [h1]; simp) (by
            show (parseNotification Ex.envDamaged (ws k).cache.tal (ws k).disk Ex.u).1 = .err
            rw [h4]; exact h3)
        have : ws (k + 1) = Ex.cycle (ws k) (ts k) := by
          rw [← hws] at hstep ⊢
          exact congrArg Prod.snd hstep
        rw [this]
        exact ⟨h1, h2, h3, h4⟩
    obtain ⟨h1, h2, h3, h4⟩ := key n
    refine ⟨?_, h2⟩
    have hstep : rrdpUpdate Ex.envDamaged (Ex.cycle (ws n) (ts n)) Ex.u = (.err, Ex.cycle (ws n) (ts n)) :=
      C79_stuck (by show (ws n).disk _ ≠ none; rw [h1]; simp) (by
        show (parseNotification Ex.envDamaged (ws n).cache.tal (ws n).disk Ex.u).1 = .err
        rw [h4]; exact h3)
    rw [hstep]

/-! ### C80 -/

/-- The text of an element: all of its text nodes. -/
def elementText : List XNode → List Byte
  | [] => []
  | n :: ns => if n.type = .endElem then [] else (if n.type = .text then n.value.getD [] else []) ++ elementText ns

theorem pair3 {x : Out × Bool × Disk} (h1 : x.1 = .ok) (h2 : x.2.1 = true) : x = (.ok, true, x.2.2) := by
  obtain ⟨a, b, c⟩ := x; simp only at h1 h2; rw [h1, h2]

/-- **C80 does not hold.** An element with a comment before its text: what is stored is the comment's text, decoded. -/
theorem C80_refuted : ∃ (env : Env) (tal : List Byte) (d d' : Disk) (n c t e : XNode) (u : Uri) (p x y : List Byte),
    n.type = .elem ∧ n.name = "publish" ∧ c.type = .other ∧ t.type = .text ∧ e.type = .endElem ∧
    PathAttr env tal u n p ∧ handlePublish env tal d n [c, t, e] u .ignore = (.ok, true, d') ∧
    env.b64 (elementText [c, t, e]) = some x ∧ d' p = some y ∧ x ≠ y := by
  refine ⟨Ex.env, txt "t", fun _ => none, _, Ex.el "publish" [("uri", txt "rsync://b/f")], Ex.comment (txt "Q"), Ex.tx (txt "G"),
    Ex.fin "publish", Ex.u, Ex.f, txt "G", txt "Q", rfl, rfl, rfl, rfl, rfl, Ex.path_f _ (by decide +kernel),
    pair3 ?_ ?_, ?_, ?_, ?_⟩ <;> decide +kernel

/-- **C80, partial.** If all that the element has is one text node, then what is stored is that text, decoded, and no other file
changes. What is missing: elements with comments, or other nodes that split the text, for which it is false. -/
theorem C80_partial {env : Env} {tal : List Byte} {d d' : Disk} {n t e : XNode} {rest : List XNode} {u : Uri} {hr : HashReq}
    {more : Bool} (ht : t.type = .text) (he : e.type = .endElem)
    (h : handlePublish env tal d n (t :: e :: rest) u hr = (.ok, more, d')) :
    ∃ p c, PathAttr env tal u n p ∧ env.b64 (elementText (t :: e :: rest)) = some c ∧ d' = d.set p (some c) := by
  obtain ⟨p, x, c, t', rest', v, e1, -, hp, hv, hc, -, -, hd⟩ := handlePublish_ok h
  cases e1
  refine ⟨p, c, hp, ?_, hd⟩
  simp [elementText, ht, he, hv, hc]

example : ∃ d', handlePublish Ex.env (txt "t") (fun _ => none) (Ex.el "publish" [("uri", txt "rsync://b/f")])
    [Ex.tx (txt "G"), Ex.fin "publish"] Ex.u .ignore = (.ok, true, d') :=
  ⟨_, pair3 (by decide +kernel) (by decide +kernel)⟩

/-! ### C81, C82 -/

namespace Ex

/-- Another notification; it says that its snapshot is where the first server's notification is. -/
def evil : List XNode :=
  [root "notification" "7", el "snapshot" [("uri", txt "https://a/n"), ("hash", hex "1")], fin "snapshot", fin "notification"]

def xmlEvil (c : List Byte) : Doc := if c = txt "EVIL" then ⟨true, evil, true⟩ else xml c

def httpEvil (t : Nat) (u : Url) : Http :=
  if u.uri.global = txt "https://e/n" then ⟨0, t + 200, true, txt "EVIL"⟩
  else if t = 0 ∨ u.uri.global ≠ txt "https://a/n" then http t u
  else ⟨0, t + 200, true, txt "N2"⟩

def envEvil : Env := { env with xml := xmlEvil, http := httpEvil }

def uEvil : Uri := ⟨txt "https://e/n", txt "/r/t/https/e/n", .https⟩

end Ex

/-- **C81, isolation does not hold.** Two notifications of different hosts. Alone, an update of the second repository gets its new file.
After an update of the first one, in the same cycle, the second one's update says it succeeded, and its files are the old ones. -/
theorem C81_refuted : ∃ (env : Env) (w : World) (u₁ u₂ : Uri) (cage₁ cage₂ old new : List Byte),
    uriCreate env.repo (some w.cache.tal) .https none (txt "https://e/n") = .ok u₁ ∧
    uriCreate env.repo (some w.cache.tal) .https none (txt "https://a/n") = .ok u₂ ∧
    IsCage env w.cache.tal u₁ cage₁ ∧ IsCage env w.cache.tal u₂ cage₂ ∧ ¬ In cage₁ cage₂ ∧ ¬ In cage₂ cage₁ ∧
    (rrdpUpdate env w u₂).1 = .ok ∧ (rrdpUpdate env w u₂).2.disk new = some (txt "G") ∧ (rrdpUpdate env w u₂).2.disk old = none ∧
    (let w₁ := (rrdpUpdate env w u₁).2
     (rrdpUpdate env w₁ u₂).1 = .ok ∧ (rrdpUpdate env w₁ u₂).2.disk new = none ∧ (rrdpUpdate env w₁ u₂).2.disk old ≠ none) := by
  refine ⟨Ex.envEvil, Ex.cycle (rrdpUpdate Ex.envEvil Ex.w0 Ex.u).2 100, Ex.uEvil, Ex.u, txt "/r/t/rrdp/e/n", Ex.cage, Ex.f, Ex.g,
    by decide +kernel, by decide +kernel, ⟨⟨[], txt "/r/t/rrdp/e/n", .caged⟩, by decide +kernel, rfl⟩,
    ⟨⟨[], Ex.cage, .caged⟩, by decide +kernel, rfl⟩, by decide, by decide, ?_⟩
  decide +kernel

/-- **C82 does not hold.** In one cycle: the repository's update fails, and its files are gone. The next request for the same
repository, in the same cycle, says that the update succeeded; there still are no files. -/
theorem C82_refuted : ∃ (env : Env) (w : World) (u : Uri) (p : List Byte), w.disk p ≠ none ∧
    (rrdpUpdate env w u).1 = .err ∧
    (let w' := (rrdpUpdate env w u).2
     (rrdpUpdate env w' u).1 = .ok ∧ (rrdpUpdate env w' u).2.tick = w'.tick ∧
     (rrdpUpdate env w' u).2.disk p = none ∧ (rrdpUpdate env w' u).2.disk Ex.g = none) := by
  refine ⟨Ex.envBroken, Ex.cycle Ex.b1 12, Ex.u, Ex.f, ?_⟩
  decide +kernel

end Verif.Rrdp
