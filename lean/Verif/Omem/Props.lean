import Verif.Omem.LemmasObj
/-
C205: memory when certificates, CRLs and signed objects are validated.
-/
namespace Verif.Omem
open Verif.Heap

/-- The state once a thread is done with the files `l`, in that order; `orc` is what else happens. -/
def finally_ (debug : Bool) (l : List Op) (orc : Nat → Nat) : H := (thread debug l (H.init orc)).2

/-- **C205 (safety).** Whatever files it validates, a thread never uses or releases what isn't allocated and never follows NULL; and what's
still allocated in the end is what was lost. -/
theorem C205_safe (debug : Bool) (l : List Op) (orc : Nat → Nat) :
    (finally_ debug l orc).bad = false ∧ ∀ i, (finally_ debug l orc).refs i = (finally_ debug l orc).lost.count i := by
  have h := o_thread (c := False) (L := []) (debug := debug) (l := l) (fun h => h.elim) (H.init orc) ⟨own_init orc, fun h => h.elim⟩
  refine ⟨h.1.good, fun i => ?_⟩
  have hb := h.1.bal i
  simpa [finally_] using hb

/-- **C205 (partial).** If no name repeats an attribute and all dates can be printed, nothing is left behind, whatever is wrong with the
files otherwise. What is missing: the other files, see `C205_refuted`. -/
theorem C205_nothing_left_partial (debug : Bool) (l : List Op) (hl : ∀ o ∈ l, o.Clean) (orc : Nat → Nat) (i : Id) : (finally_ debug l orc).refs i = 0 := by
  have h := o_thread (c := True) (L := []) (debug := debug) (l := l) (fun _ => hl) (H.init orc) ⟨own_init orc, fun _ => rfl⟩
  have hb := h.1.bal i
  rw [h.2 trivial] at hb
  simpa [finally_] using hb

/-- Not only in the end: in the middle of it, what's allocated is what the thread has — the stack of certificates and the CRLs of its
publication points. So a file that was rejected has left nothing behind. -/
theorem C205_during_partial (debug : Bool) (l : List Op) (hl : ∀ o ∈ l, o.Clean) (orc : Nat → Nat) (i : Id) :
    (work debug l (H.init orc)).2.refs i = ((work debug l (H.init orc)).1.stack.flatMap Frame.things ++ (work debug l (H.init orc)).1.pps.flatMap Pp.things).count i := by
  have h := o_work (c := True) (L := []) (debug := debug) (l := l) (fun _ => hl) (H.init orc) ⟨own_init orc, fun _ => rfl⟩
  have hb := h.1.1.bal i
  rw [h.1.2 trivial] at hb
  simpa [W.things, stackThings, ppsThings] using hb

/-! ### Files -/

def aCert : CertF := ⟨[.cn], [.cn, .sn], true, true⟩
def aCrl : CrlF := ⟨[.cn], true, true⟩

/-- What happens: `l` has the answers that aren't 0. -/
def answers (l : List (Nat × Nat)) (n : Nat) : Nat := ((l.find? (·.1 = n)).map Prod.snd).getD 0

/-- A trust anchor, its manifest, a certificate, a ROA and a Ghostbusters record. -/
def someFiles : List Op := [.ta aCert, .mft aCert aCrl, .cert 0 aCert aCrl, .obj .roa 0 aCert aCrl, .obj .gbr 0 aCert aCrl]
def someRun : List (Nat × Nat) :=
  [(254, 3), (246, 1), (234, 3), (207, 3), (181, 1), (170, 1), (155, 1), (150, 1), (148, 3), (136, 1), (132, 1), (96, 1), (92, 3), (84, 1), (72, 3), (53, 3), (52, 1), (21, 3)]

instance (n : Name) : Decidable (Once n) := inferInstanceAs (Decidable (_ ∧ _))
instance (f : CertF) : Decidable f.Clean := inferInstanceAs (Decidable (_ ∧ _))
instance (g : CrlF) : Decidable g.Clean := inferInstanceAs (Decidable (_ ∧ _))
instance : (o : Op) → Decidable o.Clean
  | .ta f => inferInstanceAs (Decidable f.Clean)
  | .cert _ f g => inferInstanceAs (Decidable (f.Clean ∧ g.Clean))
  | .obj _ _ f g => inferInstanceAs (Decidable (f.Clean ∧ g.Clean))
  | .mft f g => inferInstanceAs (Decidable (f.Clean ∧ g.Clean))
  | .pop => inferInstanceAs (Decidable True)
  | .drop _ => inferInstanceAs (Decidable True)

example : ∀ o ∈ someFiles, o.Clean := by decide +kernel
/-- Both certificates are in the stack, two serial numbers are known, the publication point has a CRL; 129 objects were allocated. -/
example : ((work true someFiles (H.init (answers someRun))).1.stack.map fun f => f.serials.length) = [0, 2] ∧ ((work true someFiles (H.init (answers someRun))).1.pps.map fun p => p.crls.isSome) = [true] ∧
    (work true someFiles (H.init (answers someRun))).2.next = 129 := by decide +kernel

/-- The same, without serial numbers in the names. -/
def plain : CertF := ⟨[.cn], [.cn], true, true⟩
/-- A trust anchor and its manifest, whose CRL is stale. -/
def staleRun : List (Nat × Nat) := [(87, 1), (68, 1), (64, 2), (56, 1), (48, 2), (40, 1)]

theorem left_of_lost {debug : Bool} {l : List Op} {orc : Nat → Nat} (h : (finally_ debug l orc).lost.isEmpty = false) : ∃ i, (finally_ debug l orc).refs i ≠ 0 := by
  cases hl : (finally_ debug l orc).lost with
  | nil => simp [hl] at h
  | cons i t => exact ⟨i, by rw [(C205_safe debug l orc).2 i, hl]; simp⟩

/-- **C205 is false as such.** The certificate of a trust anchor whose issuer has two common names is accepted and loses the first one; and
when a CRL is stale and its dates can't be printed, the buffer for the date is lost. Neither is released when the thread is done. -/
theorem C205_refuted :
    (∃ f orc, f.issuer = [.cn, .cn] ∧ (work false [.ta f] (H.init orc)).1.stack.length = 1 ∧ ∃ i, (finally_ false [.ta f] orc).refs i ≠ 0) ∧
    (∃ f g orc, f.Clean ∧ g.nu = false ∧ Once g.issuer ∧ ∃ i, (finally_ false [.ta f, .mft f g] orc).refs i ≠ 0) :=
  ⟨⟨{ plain with issuer := [.cn, .cn] }, fun _ => 0, rfl, by decide +kernel, left_of_lost (by decide +kernel)⟩,
   ⟨plain, { aCrl with nu := false }, answers staleRun, by decide +kernel, rfl, by decide +kernel, left_of_lost (by decide +kernel)⟩⟩

end Verif.Omem
