import Verif.Xmem.Model
import Verif.Xmem.Spec
/-
Triples.
-/
namespace Verif.Xmem
open Verif.Heap

/-- What's allocated is what's in the list. -/
def O (L : List Id) (s : H) : Prop := Own L s ∧ s.lost = []

theorem O.perm {L L' : List Id} {s : H} (h : O L s) (hL : ∀ i, L.count i = L'.count i) : O L' s := ⟨h.1.perm hL, h.2⟩
theorem o_perm {α : Type} {L L' : List Id} {m : HM α} {Q : α → H → Prop} (h : Tri (O L) m Q) (hL : ∀ i, L'.count i = L.count i) : Tri (O L') m Q := fun s hs => h s (hs.perm hL)

theorem o_ask {L : List Id} : Tri (O L) ask (fun _ => O L) := fun s h => ⟨t_ask s h.1, h.2⟩
theorem o_askB {L : List Id} : Tri (O L) askB (fun _ => O L) := fun s h => ⟨t_askB s h.1, h.2⟩
theorem o_new {L : List Id} : Tri (O L) new (fun x => O (x :: L)) := fun s h => ⟨t_new s h.1, h.2⟩
theorem o_use {L : List Id} {i : Id} (hi : i ∈ L) : Tri (O L) (use i) (fun _ => O L) := fun s h => ⟨t_use hi s h.1, h.2⟩
theorem o_free {L : List Id} {i : Id} : Tri (O (i :: L)) (free i) (fun _ => O L) := fun s h => ⟨t_free s h.1, h.2⟩
theorem o_create {L : List Id} : Tri (O L) create (fun r => O (r.toList ++ L)) :=
  Tri.bind o_askB fun _ => Tri.ite (fun _ => Tri.pure fun _ h => h) fun _ => Tri.bind o_new fun _ => Tri.pure fun _ h => h

theorem o_freeP {L : List Id} : ∀ p : Ptr, Tri (O (p.toList ++ L)) (freeP p) (fun _ => O L)
  | none => Tri.pure fun _ h => h
  | some _ => o_free
theorem o_useP {L : List Id} {p : Ptr} (hp : p ≠ none) (h : ∀ i, p = some i → i ∈ L) : Tri (O L) (useP p) (fun _ => O L) := by
  cases p with
  | none => exact absurd rfl hp
  | some i => exact o_use (h i rfl)
theorem o_peek {L : List Id} {p : Ptr} (h : ∀ i, p = some i → i ∈ L) : Tri (O L) (peek p) (fun _ => O L) := by
  cases p with
  | none => exact Tri.pure fun _ h => h
  | some i => exact o_use (h i rfl)
theorem o_realloc {L : List Id} {i : Id} : Tri (O (i :: L)) (realloc i) (fun j => O (j :: L)) := Tri.bind o_free fun _ => o_new

/-! ### Who owns what -/

def Serial.things (s : Serial) : List Id := s.num.toList ++ s.str.toList
def Session.things (s : Session) : List Id := s.sid.toList ++ s.serial.things
def Meta.things (m : Meta) : List Id := m.uri.toList ++ m.hash.toList
def Delta.things (d : Delta) : List Id := d.serial.things ++ d.info.things
def Notif.things (n : Notif) : List Id := n.session.things ++ n.snapshot.things ++ n.deltas.flatMap Delta.things ++ n.arr.toList ++ [n.uri]

def Serial.full (s : Serial) : Prop := s.num ≠ none ∧ s.str ≠ none
def Session.full (s : Session) : Prop := s.sid ≠ none ∧ s.serial.full
def Meta.full (m : Meta) : Prop := m.uri ≠ none ∧ m.hash ≠ none
def Delta.full (d : Delta) : Prop := d.serial.full ∧ d.info.full

theorem null_serial : Serial.null.things = [] := rfl
theorem null_session : Session.null.things = [] := rfl
theorem null_meta : Meta.null.things = [] := rfl

theorem o_serialCleanup {L : List Id} {s : Serial} : Tri (O (s.things ++ L)) (serialCleanup s) (fun r h => O L h ∧ r = Serial.null) := by
  refine Tri.bind (o_perm (o_freeP (L := s.str.toList ++ L) s.num) fun i => by simp [Serial.things]) fun _ => Tri.bind (o_freeP _) fun _ => Tri.pure fun _ h => ⟨h, rfl⟩

theorem o_sessionCleanup {L : List Id} {s : Session} : Tri (O (s.things ++ L)) (sessionCleanup s) (fun _ => O L) := by
  refine Tri.bind (o_perm (o_freeP (L := s.serial.num.toList ++ (s.serial.str.toList ++ L)) s.sid) fun i => by simp [Session.things, Serial.things]) fun _ => Tri.bind (o_freeP _) fun _ => o_freeP _

theorem o_metadataCleanup {L : List Id} {m : Meta} : Tri (O (m.things ++ L)) (metadataCleanup m) (fun _ => O L) := by
  refine Tri.bind (o_perm (o_freeP (L := m.uri.toList ++ L) m.hash) fun i => ?_) fun _ => o_freeP _
  simp only [Meta.things, List.count_append]; omega

theorem o_deltaCleanup {L : List Id} {d : Delta} : Tri (O (d.things ++ L)) (notificationDeltaCleanup d) (fun _ => O L) := by
  refine Tri.bind (o_perm (o_serialCleanup (s := d.serial) (L := d.info.things ++ L)) fun i => by simp [Delta.things]) fun _ => fun s h => o_metadataCleanup s h.1

theorem o_deltasCleanup {L : List Id} {arr : Ptr} : ∀ ds : List Delta, (ds ≠ [] → arr ≠ none) → (∀ i, arr = some i → i ∈ L) → Tri (O (ds.flatMap Delta.things ++ L)) (deltasCleanup arr ds) (fun _ => O L)
  | [], _, _ => Tri.pure fun _ h => h
  | d :: ds, h, hL => by
    refine Tri.bind (o_useP (h (by simp)) fun i hi => List.mem_append_right _ (hL i hi)) fun _ => ?_
    refine Tri.bind (o_perm (o_deltaCleanup (d := d) (L := ds.flatMap Delta.things ++ L)) fun i => by simp) fun _ => ?_
    exact o_deltasCleanup ds (fun _ => h (by simp)) hL

theorem o_updateNotificationCleanup {L : List Id} {n : Notif} (h : n.deltas ≠ [] → n.arr ≠ none) : Tri (O (n.things ++ L)) (updateNotificationCleanup n) (fun _ => O L) := by
  refine Tri.bind (o_perm (o_metadataCleanup (m := n.snapshot) (L := n.session.things ++ (n.deltas.flatMap Delta.things ++ (n.arr.toList ++ (n.uri :: L))))) fun i => ?_) fun _ => ?_
  · simp only [Notif.things, List.count_append, List.count_cons, List.count_nil]; omega
  refine Tri.bind o_sessionCleanup fun _ => Tri.bind (o_deltasCleanup _ h fun i hi => by simp [hi]) fun _ => Tri.bind (o_freeP _) fun _ => o_free

theorem o_validateHash {L : List Id} {m : Meta} (hm : m.full) (h : ∀ i ∈ m.things, i ∈ L) : Tri (O L) (validateHash m) (fun _ => O L) :=
  Tri.bind (o_useP hm.1 fun i hi => h i (by simp [Meta.things, hi])) fun _ => Tri.bind (o_useP hm.2 fun i hi => h i (by simp [Meta.things, hi])) fun _ => o_askB

theorem o_base64Sanitize {L : List Id} {c : Id} (hc : c ∈ L) : Tri (O L) (base64Sanitize c) (fun r => O (r.toList ++ L)) := by
  refine Tri.bind (o_use hc) fun _ => Tri.bind o_askB fun _ => Tri.ite (fun _ => Tri.pure fun _ h => h) fun _ => Tri.bind o_new fun r => Tri.bind o_askB fun _ => ?_
  exact Tri.ite (fun _ => Tri.bind o_realloc fun _ => Tri.pure fun _ h => h) fun _ => Tri.pure fun _ h => h

theorem o_base64Read {L : List Id} {c : Id} (hc : c ∈ L) : Tri (O L) (base64Read c) (fun r s => O (r.2.toList ++ L) s ∧ (r.1 = false → r.2 ≠ none) ∧ (r.1 = true → r.2 = none)) := by
  refine Tri.bind (o_base64Sanitize hc) fun r => ?_
  cases r with
  | none => exact Tri.pure fun _ h => ⟨h, by simp, by simp⟩
  | some san =>
    refine Tri.bind o_create fun b => ?_
    cases b with
    | none => exact Tri.bind o_free fun _ => Tri.pure fun _ h => ⟨h, by simp, by simp⟩
    | some bio =>
      refine Tri.bind (o_use (by simp [hc])) fun _ => Tri.bind o_new fun res => Tri.bind (o_use (by simp)) fun _ => Tri.bind (o_use (by simp)) fun _ => Tri.bind (o_use (by simp)) fun _ => ?_
      refine Tri.bind o_askB fun _ => Tri.ite (fun _ => ?_) fun _ => ?_
      · exact Tri.bind o_free fun _ => Tri.bind o_free fun _ => Tri.bind o_free fun _ => Tri.pure fun _ h => ⟨h, by simp, by simp⟩
      · refine Tri.bind (o_perm (o_free (L := bio :: res :: L)) fun i => ?_) fun _ => Tri.bind o_free fun _ => Tri.pure fun _ h => ⟨h, by simp, by simp⟩
        simp only [Option.toList, List.count_append, List.count_cons, List.count_nil]; omega

theorem o_parseUlong {L : List Id} {e : Ev} (he : e.vfits = true) : Tri (O L) (parseUlong e) (fun _ => O L) := by
  refine Tri.bind o_create fun r => ?_
  cases r with
  | none => exact Tri.pure fun _ h => h
  | some str =>
    refine Tri.bind (o_use (by simp)) fun _ => Tri.bind o_free fun _ => ?_
    exact Tri.ite (fun _ => Tri.pure fun _ h => h) fun h => absurd he h

theorem o_hexstr {L : List Id} {x : Id} (hx : x ∈ L) : Tri (O L) (hexstr2sha256 x) (fun r => O (r.toList ++ L)) := by
  refine Tri.bind (o_use hx) fun _ => Tri.bind o_askB fun _ => Tri.ite (fun _ => Tri.pure fun _ h => h) fun _ => ?_
  refine Tri.bind o_new fun _ => Tri.bind (o_use (by simp [hx])) fun _ => Tri.bind (o_use (by simp)) fun _ => Tri.bind o_askB fun _ => ?_
  exact Tri.ite (fun _ => Tri.bind o_free fun _ => Tri.pure fun _ h => h) fun _ => Tri.pure fun _ h => h

theorem o_parseHash {L : List Id} {hr : Hr} : Tri (O L) (parseHash hr) (fun r s => O (r.2.toList ++ L) s ∧ (r.1 = true → r.2 = none) ∧ (r.1 = false → hr = .mandatory → r.2 ≠ none)) := by
  refine Tri.ite (fun h => Tri.pure fun _ h' => ⟨h', fun _ => rfl, fun _ h2 => by rw [h] at h2; exact absurd h2 (by decide)⟩) fun _ => ?_
  refine Tri.bind o_create fun r => ?_
  cases r with
  | none => exact Tri.pure fun _ h => ⟨h, by simp, by simp⟩
  | some x =>
    refine Tri.bind (o_hexstr (by simp)) fun r => ?_
    refine Tri.bind (o_perm (o_free (L := r.toList ++ L)) fun i => ?_) fun _ => Tri.pure fun _ h => ⟨h, by simp, by cases r <;> simp⟩
    simp only [Option.toList, List.count_append, List.count_cons, List.count_nil]; omega

theorem o_validateVersion {L : List Id} {e : Ev} (he : e.vfits = true) : Tri (O L) (validateVersion e) (fun _ => O L) :=
  Tri.bind (o_parseUlong he) fun _ => Tri.ite (fun _ => Tri.pure fun _ h => h) fun _ => o_askB

theorem o_parseSerial {L : List Id} : Tri (O L) (parseSerial Serial.null) (fun r s => O (r.2.things ++ L) s ∧ (r.1 = false → r.2.full) ∧ (r.1 = true → r.2 = Serial.null)) := by
  refine Tri.bind o_create fun r => ?_
  cases r with
  | none => exact Tri.pure fun _ h => ⟨h, by simp, fun _ => rfl⟩
  | some str =>
    refine Tri.bind o_new fun num => Tri.bind (o_use (by simp)) fun _ => Tri.bind (o_use (by simp)) fun _ => ?_
    have hc : Tri (O (num :: ((some str).toList ++ L))) (do return (true, ← serialCleanup ⟨some num, some str⟩) : HM (Bool × Serial))
        (fun r s => O (r.2.things ++ L) s ∧ (r.1 = false → r.2.full) ∧ (r.1 = true → r.2 = Serial.null)) := by
      refine Tri.bind (o_serialCleanup (s := ⟨some num, some str⟩)) fun r => Tri.pure fun s h => ?_
      obtain ⟨h, rfl⟩ := h
      exact ⟨h, by simp, fun _ => rfl⟩
    refine Tri.bind o_askB fun _ => Tri.ite (fun _ => hc) fun _ => Tri.bind (o_use (by simp)) fun _ => Tri.bind o_askB fun _ => ?_
    exact Tri.ite (fun _ => Tri.bind (o_use (by simp)) fun _ => hc) fun _ => Tri.pure fun _ h => ⟨h, fun _ => ⟨by simp, by simp⟩, by simp⟩

theorem o_parseSession {L : List Id} {e : Ev} (he : e.vfits = true) : Tri (O L) (parseSession e Session.null) (fun r s => O (r.2.things ++ L) s ∧ (r.1 = false → r.2.full) ∧ (r.1 = true → r.2 = Session.null)) := by
  have h0 : Tri (O L) (pure (true, Session.null) : HM (Bool × Session)) (fun r s => O (r.2.things ++ L) s ∧ (r.1 = false → r.2.full) ∧ (r.1 = true → r.2 = Session.null)) :=
    Tri.pure fun _ h => ⟨h, by simp, fun _ => rfl⟩
  refine Tri.bind o_askB fun _ => Tri.ite (fun _ => h0) fun _ => Tri.bind (o_validateVersion he) fun _ => Tri.ite (fun _ => h0) fun _ => ?_
  refine Tri.bind o_create fun r => ?_
  cases r with
  | none => exact h0
  | some sid =>
    refine Tri.bind o_parseSerial fun r => Tri.pre fun ⟨h2, h3⟩ => Tri.ite (fun hr => ?_) fun hr => ?_
    · rw [h3 hr]
      exact Tri.bind o_free fun _ => Tri.pure fun _ h => ⟨h, by simp, fun _ => rfl⟩
    · refine Tri.pure fun _ h1 => ⟨h1.perm fun i => ?_, fun _ => ⟨by simp, h2 (by simpa using hr)⟩, by simp⟩
      simp only [Session.things, Option.toList, List.count_append, List.count_cons, List.count_nil]; omega

theorem o_validateSession {L : List Id} {e : Ev} {x : Session} (he : e.vfits = true) (hx : ∀ i ∈ x.things, i ∈ L) : Tri (O L) (validateSession e x) (fun _ => O L) := by
  refine Tri.bind (o_parseSession he) fun r => Tri.pre fun ⟨h2, h3⟩ => Tri.ite (fun hr => ?_) fun hr => ?_
  · rw [h3 hr]
    exact Tri.pure fun _ h => h
  · have hf := h2 (by simpa using hr)
    have hx' : ∀ i ∈ x.things, i ∈ r.2.things ++ L := fun i hi => List.mem_append_right _ (hx i hi)
    have p1 : Tri (O (r.2.things ++ L)) (peek x.sid) (fun _ => O (r.2.things ++ L)) := o_peek fun i hi => hx' i (by simp [Session.things, hi])
    have p2 : Tri (O (r.2.things ++ L)) (peek x.serial.num) (fun _ => O (r.2.things ++ L)) := o_peek fun i hi => hx' i (by simp [Session.things, Serial.things, hi])
    have p3 : Tri (O (r.2.things ++ L)) (peek x.serial.str) (fun _ => O (r.2.things ++ L)) := o_peek fun i hi => hx' i (by simp [Session.things, Serial.things, hi])
    have q1 : Tri (O (r.2.things ++ L)) (useP r.2.sid) (fun _ => O (r.2.things ++ L)) := o_useP hf.1 fun i hi => by simp [Session.things, hi]
    have q2 : Tri (O (r.2.things ++ L)) (useP r.2.serial.num) (fun _ => O (r.2.things ++ L)) := o_useP hf.2.1 fun i hi => by simp [Session.things, Serial.things, hi]
    have q3 : Tri (O (r.2.things ++ L)) (useP r.2.serial.str) (fun _ => O (r.2.things ++ L)) := o_useP hf.2.2 fun i hi => by simp [Session.things, Serial.things, hi]
    have c : ∀ b : Bool, Tri (O (r.2.things ++ L)) (do sessionCleanup r.2; return b : HM Bool) (fun _ => O L) := fun b => Tri.bind o_sessionCleanup fun _ => Tri.pure fun _ h => h
    refine Tri.bind p1 fun _ => Tri.bind q1 fun _ => Tri.bind o_askB fun _ => Tri.ite (fun _ => Tri.bind p1 fun _ => Tri.bind q1 fun _ => c true) fun _ => ?_
    exact Tri.bind q2 fun _ => Tri.bind p2 fun _ => Tri.bind o_askB fun _ => Tri.ite (fun _ => Tri.bind q3 fun _ => Tri.bind p3 fun _ => c true) fun _ => c false

/-- What `parse_file_metadata` gives. -/
def MetaOk (hr : Hr) (e : Ev) (r : Bool × Meta) : Prop :=
  (r.1 = true → r.2 = Meta.null) ∧ (r.1 = false → e.hasUri = true ∧ r.2.uri ≠ none ∧ (hr = .mandatory → r.2.full))

theorem o_parseFileMetadata {L : List Id} {e : Ev} {hr : Hr} : Tri (O L) (parseFileMetadata e hr) (fun r s => O (r.2.things ++ L) s ∧ MetaOk hr e r) := by
  have h0 : Tri (O L) (pure (true, Meta.null) : HM (Bool × Meta)) (fun r s => O (r.2.things ++ L) s ∧ MetaOk hr e r) := Tri.pure fun _ h => ⟨h, fun _ => rfl, by simp⟩
  refine Tri.ite (fun _ => h0) fun hu => Tri.bind o_new fun str => Tri.bind (o_use (by simp)) fun _ => Tri.bind o_create fun u => ?_
  have hu : e.hasUri = true := by simpa using hu
  refine Tri.bind (o_perm (o_free (L := u.toList ++ L)) fun i => ?_) fun _ => ?_
  · simp only [List.count_append, List.count_cons]; omega
  cases u with
  | none => exact h0
  | some u =>
    refine Tri.ite (fun h => Tri.pure fun _ h' => ⟨h', by simp, fun _ => ⟨hu, by simp, fun h2 => by rw [h] at h2; exact absurd h2 (by decide)⟩⟩) fun _ => ?_
    refine Tri.bind o_parseHash fun r => Tri.pre fun ⟨h2, h3⟩ => Tri.ite (fun hr' => ?_) fun hr' => ?_
    · rw [h2 hr']
      exact Tri.bind o_free fun _ => Tri.pure fun _ h => ⟨h, fun _ => rfl, by simp⟩
    · refine Tri.pure fun _ h1 => ⟨h1.perm fun i => ?_, by simp, fun _ => ⟨hu, by simp, fun hm => ⟨by simp, h3 (by simpa using hr') hm⟩⟩⟩
      simp only [Meta.things, Option.toList, List.count_append, List.count_cons, List.count_nil]; omega

end Verif.Xmem
