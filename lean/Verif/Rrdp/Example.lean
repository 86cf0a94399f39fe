import Verif.Rrdp.MirrorProps
/-
The specification determines what documents mean; a server and its documents, used as an example.
-/
namespace Verif.Rrdp
open Verif.Res (Byte)
open Verif.Uri
open Verif.Cache (Url Cfg Op Cache)

theorem pathAttr_det {env : Env} {tal : List Byte} {u : Uri} {n : XNode} {p q : List Byte} (h1 : PathAttr env tal u n p)
    (h2 : PathAttr env tal u n q) : p = q := by
  obtain ⟨s, v, a1, a2, rfl⟩ := h1
  obtain ⟨s', v', b1, b2, rfl⟩ := h2
  rw [a1] at b1; cases b1
  rw [a2] at b2; cases b2
  rfl

theorem hashAttr_det {n : XNode} {x y : List Byte} (h1 : HashAttr n x) (h2 : HashAttr n y) : x = y := by
  obtain ⟨s, a1, a2⟩ := h1
  obtain ⟨s', b1, b2⟩ := h2
  rw [a1] at b1; cases b1
  rw [a2] at b2; cases b2
  rfl

/-- A document lists one sequence of changes at most. -/
theorem Lists.det {env : Env} {tal : List Byte} {u : Uri} {b : Bool} {s : Session} {ns : List XNode} {cs cs' : List Change}
    (h : Lists env tal u b s ns cs) (h' : Lists env tal u b s ns cs') : cs = cs' := by
  induction h generalizing cs' with
  | nil => cases h'; rfl
  | publish n t rest p v c e cs h1 h2 hp hv hc he r ih =>
    cases h' with
    | publish _ _ _ p' v' c' e' cs'' _ _ hp' hv' hc' he' r' =>
      rw [hv] at hv'; cases hv'
      rw [hc] at hc'; cases hc'
      rw [pathAttr_det hp hp', ih r']
      have : e = e' := by
        cases b with
        | false => simp only [Bool.false_eq_true, if_false] at he he'; rw [he, he']
        | true =>
          simp only [if_true] at he he'
          cases e with
          | none =>
            cases e' with
            | none => rfl
            | some x =>
              obtain ⟨s, hs, -⟩ := he'.1 x rfl
              rw [he.2 rfl] at hs; cases hs
          | some x =>
            cases e' with
            | none =>
              obtain ⟨s, hs, -⟩ := he.1 x rfl
              rw [he'.2 rfl] at hs; cases hs
            | some y => rw [hashAttr_det (he.1 x rfl) (he'.1 y rfl)]
      rw [this]
    | withdraw _ _ _ _ _ _ _ h2' => rw [h2] at h2'; simp at h2'
    | root _ _ _ _ h2' => rw [h2] at h2'; split at h2' <;> simp at h2'
    | other _ _ _ ho => exact absurd h1 ho
  | withdraw n rest p x cs hd h1 h2 hp hx r ih =>
    cases h' with
    | publish _ _ _ _ _ _ _ _ _ h2' => rw [h2] at h2'; simp at h2'
    | withdraw _ _ p' x' _ _ _ _ hp' hx' r' => rw [pathAttr_det hp hp', hashAttr_det hx hx', ih r']
    | root _ _ _ _ h2' => rw [h2] at h2'; split at h2' <;> simp at h2'
    | other _ _ _ ho => exact absurd h1 ho
  | root n rest cs h1 h2 hs r ih =>
    cases h' with
    | publish _ _ _ _ _ _ _ _ _ h2' => rw [h2] at h2'; split at h2' <;> simp at h2'
    | withdraw _ _ _ _ _ _ _ h2' => rw [h2] at h2'; split at h2' <;> simp at h2'
    | root _ _ _ _ _ _ r' => exact ih r'
    | other _ _ _ ho => exact absurd h1 ho
  | other n rest cs ho r ih =>
    cases h' with
    | publish _ _ _ _ _ _ _ _ h1 => exact absurd h1 ho
    | withdraw _ _ _ _ _ _ h1 => exact absurd h1 ho
    | root _ _ _ h1 => exact absurd h1 ho
    | other _ _ _ _ r' => exact ih r'

/-- Changes have one outcome at most. -/
theorem Applies.det {sha : List Byte → List Byte} {d a b : Disk} {cs : List Change} (h : Applies sha d cs a)
    (h' : Applies sha d cs b) : a = b := by
  induction h with
  | nil => cases h'; rfl
  | publish _ _ _ _ _ _ _ _ ih => cases h' with | publish _ _ _ _ _ _ _ r => exact ih r
  | withdraw _ _ _ _ _ _ _ ih => cases h' with | withdraw _ _ _ _ _ _ r => exact ih r

/-! ### The example -/

namespace Ex

def el (name : String) (attrs : List (String × List Byte)) : XNode := ⟨.elem, name, rrdpNs, attrs, none, true⟩
def fin (name : String) : XNode := ⟨.endElem, name, rrdpNs, [], none, true⟩
def tx (s : List Byte) : XNode := ⟨.text, "#text", "", [], some s, true⟩
def comment (s : List Byte) : XNode := ⟨.other, "#comment", "", [], some s, true⟩

/-- 64 times the same character -/
def hex (c : String) : List Byte := (List.replicate 64 (txt c)).flatten
/-- 32 times the same byte -/
def hash (b : Byte) : List Byte := List.replicate 32 b

def root (name serial : String) : XNode :=
  el name [("version", txt "1"), ("session_id", txt "x"), ("serial", txt serial)]

/-- Notification 1: the snapshot of serial 1. -/
def notif1 : List XNode :=
  [root "notification" "1", el "snapshot" [("uri", txt "https://a/s1"), ("hash", hex "1")], fin "snapshot", fin "notification"]
/-- Notification 2: the snapshot of serial 2 and the delta from 1 to 2. -/
def notif2 : List XNode :=
  [root "notification" "2", el "snapshot" [("uri", txt "https://a/s2"), ("hash", hex "2")], fin "snapshot",
   el "delta" [("serial", txt "2"), ("uri", txt "https://a/d2"), ("hash", hex "3")], fin "delta", fin "notification"]
/-- Snapshot 1: one file. -/
def snap1 : List XNode :=
  [root "snapshot" "1", el "publish" [("uri", txt "rsync://b/f")], tx (txt "F1"), fin "publish", fin "snapshot"]
/-- Snapshot 2: another file. -/
def snap2 : List XNode :=
  [root "snapshot" "2", el "publish" [("uri", txt "rsync://b/g")], tx (txt "G"), fin "publish", fin "snapshot"]
/-- Delta 2: the first file goes, the second one comes. -/
def delta2 : List XNode :=
  [root "delta" "2", el "withdraw" [("uri", txt "rsync://b/f"), ("hash", hex "4")], fin "withdraw",
   el "publish" [("uri", txt "rsync://b/g")], tx (txt "G"), fin "publish", fin "delta"]

def xml (c : List Byte) : Doc :=
  if c = txt "N1" then ⟨true, notif1, true⟩
  else if c = txt "N2" then ⟨true, notif2, true⟩
  else if c = txt "S1" then ⟨true, snap1, true⟩
  else if c = txt "S2" then ⟨true, snap2, true⟩
  else if c = txt "D2" then ⟨true, delta2, true⟩
  else ⟨false, [], false⟩

def sha (c : List Byte) : List Byte :=
  if c = txt "S1" then hash 0x11
  else if c = txt "S2" then hash 0x22
  else if c = txt "D2" then hash 0x33
  else if c = txt "F1" then hash 0x44
  else []

/-- The first answer is notification 1, afterwards it is notification 2 (whenever asked). -/
def http (t : Nat) (u : Url) : Http :=
  if u.uri.global = txt "https://a/n" then ⟨0, t + 10, true, if t = 0 then txt "N1" else txt "N2"⟩
  else if u.uri.global = txt "https://a/s1" then ⟨0, t + 10, true, txt "S1"⟩
  else if u.uri.global = txt "https://a/s2" then ⟨0, t + 10, true, txt "S2"⟩
  else if u.uri.global = txt "https://a/d2" then ⟨0, t + 10, true, txt "D2"⟩
  else ⟨5, t + 10, false, []⟩

def env : Env :=
  ⟨⟨true, true, 50, 60⟩, txt "/r", sha, some, xml, http, fun _ _ => none, fun _ _ => false, fun _ _ => false, fun _ _ => false⟩

def u : Uri := ⟨txt "https://a/n", txt "/r/t/https/a/n", .https⟩
def cage : List Byte := txt "/r/t/rrdp/a/n"
def w0 : World := ⟨⟨txt "t", [], 0⟩, fun _ => none, 0⟩
def f : List Byte := txt "/r/t/rrdp/a/n/b/f"
def g : List Byte := txt "/r/t/rrdp/a/n/b/g"

/-- Another validation cycle. -/
def cycle (w : World) (t : Int) : World := { w with cache := { w.cache with startup := t } }

def w1 : World := (rrdpUpdate env w0 u).2
def w2 : World := (rrdpUpdate env (cycle w1 100) u).2

/-- The server's files. -/
def files (id : List Byte) (n : Nat) : Disk := fun q =>
  if id = txt "x" ∧ n = 1 ∧ q = f then some (txt "F1") else if id = txt "x" ∧ n = 2 ∧ q = g then some (txt "G") else none

example : (rrdpUpdate env w0 u).1 = .ok ∧ w1.disk f = some (txt "F1") ∧ w1.disk g = none := by decide +kernel
example : (rrdpUpdate env (cycle w1 100) u).1 = .ok ∧ w2.disk f = none ∧ w2.disk g = some (txt "G") ∧ w2.tick = 4 := by
  decide +kernel

theorem place : Place env (txt "t") := ⟨by decide, by decide, by decide⟩
theorem hu : uriCreate env.repo (some (txt "t")) .https none (txt "https://a/n") = .ok u := by decide +kernel
theorem hcage : IsCage env (txt "t") u cage := ⟨⟨[], cage, .caged⟩, by decide +kernel, rfl⟩

/-- The notifications, once read. -/
def nf1 : Notif := ⟨some ⟨txt "x", 1⟩, some ⟨⟨txt "https://a/s1", txt "/r/t/https/a/s1", .https⟩, some (hash 0x11)⟩, []⟩
def nf2 : Notif := ⟨some ⟨txt "x", 2⟩, some ⟨⟨txt "https://a/s2", txt "/r/t/https/a/s2", .https⟩, some (hash 0x22)⟩,
  [⟨2, ⟨⟨txt "https://a/d2", txt "/r/t/https/a/d2", .https⟩, some (hash 0x33)⟩⟩]⟩

theorem read_notif (d : Disk) (c : List Byte) (nf : Notif) (hc : d u.loc = some c)
    (h : parseNotification env (txt "t") d u = (.ok, nf)) : (c = txt "N1" ∧ nf = nf1) ∨ (c = txt "N2" ∧ nf = nf2) := by
  unfold parseNotification at h
  rw [hc] at h
  simp only at h
  by_cases h1 : c = txt "N1"
  · subst h1
    have : relaxNgParse (env.xml (txt "N1")) (xmlReadNotif env (txt "t")) ⟨none, none, []⟩ = (.ok, nf1) := by decide +kernel
    rw [this] at h; cases h; exact .inl ⟨rfl, rfl⟩
  · by_cases h2 : c = txt "N2"
    · subst h2
      have : relaxNgParse (env.xml (txt "N2")) (xmlReadNotif env (txt "t")) ⟨none, none, []⟩ = (.ok, nf2) := by decide +kernel
      rw [this] at h; cases h; exact .inr ⟨rfl, rfl⟩
    · exfalso
      by_cases h3 : c = txt "S1"
      · subst h3
        have : (relaxNgParse (env.xml (txt "S1")) (xmlReadNotif env (txt "t")) ⟨none, none, []⟩).1 = .err := by decide +kernel
        rw [h] at this; cases this
      · by_cases h4 : c = txt "S2"
        · subst h4
          have : (relaxNgParse (env.xml (txt "S2")) (xmlReadNotif env (txt "t")) ⟨none, none, []⟩).1 = .err := by decide +kernel
          rw [h] at this; cases this
        · by_cases h5 : c = txt "D2"
          · subst h5
            have : (relaxNgParse (env.xml (txt "D2")) (xmlReadNotif env (txt "t")) ⟨none, none, []⟩).1 = .err := by decide +kernel
            rw [h] at this; cases this
          · have : env.xml c = ⟨false, [], false⟩ := by
              show xml c = _
              simp only [xml, h1, h2, h3, h4, h5, if_false]
            rw [this] at h
            simp [relaxNgParse] at h

theorem schema (d : Disk) (c : List Byte) (nf : Notif) (hc : d u.loc = some c)
    (h : parseNotification env (txt "t") d u = (.ok, nf)) : SchemaOk (env.xml c) := by
  rcases read_notif d c nf hc h with ⟨rfl, -⟩ | ⟨rfl, -⟩
  · refine ⟨[], root "notification" "1", [el "snapshot" [("uri", txt "https://a/s1"), ("hash", hex "1")], fin "snapshot"],
      fin "notification", [], rfl, rfl, rfl, rfl, rfl, by simp, by simp, ?_, by decide +kernel⟩
    decide +kernel
  · refine ⟨[], root "notification" "2", [el "snapshot" [("uri", txt "https://a/s2"), ("hash", hex "2")], fin "snapshot",
      el "delta" [("serial", txt "2"), ("uri", txt "https://a/d2"), ("hash", hex "3")], fin "delta"],
      fin "notification", [], rfl, rfl, rfl, rfl, rfl, by simp, by simp, ?_, by decide +kernel⟩
    decide +kernel

theorem sha_inv {c : List Byte} : (sha c = hash 0x11 → c = txt "S1") ∧ (sha c = hash 0x22 → c = txt "S2") ∧
    (sha c = hash 0x33 → c = txt "D2") := by
  unfold sha
  split
  · refine ⟨fun _ => by assumption, fun h => ?_, fun h => ?_⟩ <;> exact absurd h (by decide)
  · split
    · refine ⟨fun h => ?_, fun _ => by assumption, fun h => ?_⟩ <;> exact absurd h (by decide)
    · split
      · refine ⟨fun h => ?_, fun h => ?_, fun _ => by assumption⟩ <;> exact absurd h (by decide)
      · split
        · refine ⟨fun h => ?_, fun h => ?_, fun h => ?_⟩ <;> exact absurd h (by decide)
        · refine ⟨fun h => ?_, fun h => ?_, fun h => ?_⟩ <;> exact absurd h (by decide)

theorem path_f (n : XNode) (h : n.attr "uri" = some (txt "rsync://b/f")) : PathAttr env (txt "t") u n f :=
  ⟨_, ⟨txt "rsync://b/f", f, .caged⟩, h, by decide +kernel, rfl⟩
theorem path_g (n : XNode) (h : n.attr "uri" = some (txt "rsync://b/g")) : PathAttr env (txt "t") u n g :=
  ⟨_, ⟨txt "rsync://b/g", g, .caged⟩, h, by decide +kernel, rfl⟩

theorem lists_snap1 : Lists env (txt "t") u false ⟨txt "x", 1⟩ snap1 [.publish f none (txt "F1")] := by
  refine .root _ _ _ rfl rfl ⟨rfl, by decide +kernel, by decide +kernel⟩ ?_
  refine .publish _ _ _ f (txt "F1") (txt "F1") none _ rfl rfl (path_f _ (by decide +kernel)) rfl rfl rfl ?_
  exact .other _ _ _ (by decide) (.other _ _ _ (by decide) .nil)

theorem lists_snap2 : Lists env (txt "t") u false ⟨txt "x", 2⟩ snap2 [.publish g none (txt "G")] := by
  refine .root _ _ _ rfl rfl ⟨rfl, by decide +kernel, by decide +kernel⟩ ?_
  refine .publish _ _ _ g (txt "G") (txt "G") none _ rfl rfl (path_g _ (by decide +kernel)) rfl rfl rfl ?_
  exact .other _ _ _ (by decide) (.other _ _ _ (by decide) .nil)

theorem lists_delta2 : Lists env (txt "t") u true ⟨txt "x", 2⟩ delta2 [.withdraw f (hash 0x44), .publish g none (txt "G")] := by
  refine .root _ _ _ rfl rfl ⟨rfl, by decide +kernel, by decide +kernel⟩ ?_
  refine .withdraw _ _ f (hash 0x44) _ rfl rfl rfl (path_f _ (by decide +kernel)) ⟨hex "4", by decide +kernel, by decide +kernel⟩ ?_
  refine .other _ _ _ (by decide) ?_
  refine .publish _ _ _ g (txt "G") (txt "G") none _ rfl rfl (path_g _ (by decide +kernel)) rfl rfl ?_ ?_
  · exact ⟨(fun x hx => by cases hx), fun _ => by decide +kernel⟩
  · exact .other _ _ _ (by decide) (.other _ _ _ (by decide) .nil)

theorem fg : f ≠ g := by decide

theorem serves : Serves env (txt "t") u files := by
  intro t url d nf s hloc hd hnf hs
  rcases read_notif d _ nf hd hnf with ⟨-, rfl⟩ | ⟨-, rfl⟩
  · cases hs
    refine ⟨⟨?_, fun x hx => by cases hx⟩, ?_⟩
    · intro m c cs d hm hc hl ha
      cases hm
      cases sha_inv.1 hc
      cases lists_snap1.det hl
      refine Applies.det ha (.publish _ _ _ _ _ _ (fun x hx => by cases hx) ?_)
      have : Disk.set (fun _ => none) f (some (txt "F1")) = files (txt "x") 1 := by
        funext q
        simp [Disk.set, files]
      rw [this]; exact .nil _
    · rintro (⟨m, hm, e⟩ | ⟨x, hx, -⟩)
      · cases hm; revert e; decide
      · cases hx
  · cases hs
    refine ⟨⟨?_, ?_⟩, ?_⟩
    · intro m c cs d hm hc hl ha
      cases hm
      cases sha_inv.2.1 hc
      cases lists_snap2.det hl
      refine Applies.det ha (.publish _ _ _ _ _ _ (fun x hx => by cases hx) ?_)
      have : Disk.set (fun _ => none) g (some (txt "G")) = files (txt "x") 2 := by
        funext q
        simp [Disk.set, files]
      rw [this]; exact .nil _
    · intro x hx c cs d hc hl ha
      simp only [nf2, List.mem_singleton] at hx
      subst hx
      cases sha_inv.2.2 hc
      cases lists_delta2.det hl
      refine Applies.det ha (.withdraw _ _ _ _ _ ⟨txt "F1", by simp [files], by decide⟩
        (.publish _ _ _ _ _ _ (fun x hx => by cases hx) ?_))
      have : Disk.set (Disk.set (files (txt "x") (2 - 1)) f none) g (some (txt "G")) = files (txt "x") 2 := by
        funext q
        by_cases hg : q = g
        · simp [Disk.set, files, hg]
        · by_cases hf : q = f
          · subst hf; simp [Disk.set, files, fg]
          · simp [Disk.set, files, hf, hg]
      simp only
      rw [this]; exact .nil _
    · rintro (⟨m, hm, e⟩ | ⟨x, hx, e⟩)
      · cases hm; revert e; decide
      · simp only [nf2, List.mem_singleton] at hx
        subst hx
        revert e; decide

theorem synced0 : Synced env (txt "t") u cage files w0.disk := by
  intro nf s h _
  simp [parseNotification, w0] at h

/-- The hypotheses of `C45_history` are met, by a history with a snapshot, and then a delta. -/
example : Runs env u cage w0 w2 ∧ Synced env (txt "t") u cage files w2.disk := by
  have h1 : rrdpUpdate env w0 u = (.ok, w1) := Prod.ext (by decide +kernel) rfl
  have h2 : rrdpUpdate env (cycle w1 100) u = (.ok, w2) := Prod.ext (by decide +kernel) rfl
  have hr : Runs env u cage w0 w2 :=
    .update _ _ _ (.other _ _ (cycle w1 100) (.update _ _ _ (.start _) h1) rfl (fun _ _ => rfl)) h2
  exact ⟨hr, C45_history (w := w0) place hu hcage schema serves synced0 hr⟩

end Ex

end Verif.Rrdp
