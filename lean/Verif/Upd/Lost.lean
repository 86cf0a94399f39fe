import Verif.Heap.Lost
import Verif.Upd.Lemmas
/-
How much is lost in a cycle.
-/
namespace Verif.Upd
open Verif.Heap

/-! ### Tables, the validation -/

theorem lo_tableNew : Lo0 tableNew := Lo.bind0 lo_new fun _ => Lo.pure
theorem lo_tableDestroy : ∀ t, Lo0 (tableDestroy t)
  | none => Lo.pure
  | some _ => Lo.bind0 (lo_freeAll _) fun _ => lo_free

theorem lo_addRow {t : Table} {k : Nat} {row : Id} : Lo0 (addRow t k row) := by
  refine Lo.bind0 lo_use fun _ => Lo.bind0 lo_use fun _ => ?_
  cases t.rows.find? (fun x => x.1 = k) with
  | none => exact Lo.pure
  | some old => exact Lo.bind0 lo_free fun _ => Lo.pure

theorem lo_addRows : ∀ n t, Lo0 (addRows n t)
  | 0, _ => Lo.pure
  | n + 1, _ => Lo.bind0 (Lo.bind0 lo_new fun _ => Lo.bind0 lo_ask fun _ => lo_addRow) fun _ => lo_addRows n _

theorem lo_joinRows : ∀ l t, Lo0 (joinRows l t)
  | [], _ => Lo.pure
  | (_, _) :: l, _ => Lo.bind0 lo_addRow fun _ => lo_joinRows l _

theorem lo_removeRow {t : Table} {k : Nat} : Lo0 (removeRow t k) := by
  unfold removeRow
  cases t.rows.find? (fun x => x.1 = k) with
  | none => exact Lo.pure
  | some old => exact Lo.bind0 lo_free fun _ => Lo.pure

theorem lo_removeRows : ∀ n t, Lo0 (removeRows n t)
  | 0, _ => Lo.pure
  | n + 1, _ => Lo.bind0 lo_ask fun _ => Lo.bind0 lo_removeRow fun _ => lo_removeRows n _

theorem lo_doFileValidation : Lo0 doFileValidation :=
  Lo.bind0 lo_askB fun _ => Lo.ite Lo.pure (Lo.bind0 lo_ask fun _ => Lo.bind0 lo_tableNew fun _ => Lo.bind0 (lo_addRows _ _) fun _ => Lo.bind0 lo_askB fun _ => Lo.ite (Lo.bind0 (lo_tableDestroy _) fun _ => Lo.pure) Lo.pure)

theorem lo_spawn : ∀ n l, Lo0 (spawn n l)
  | 0, _ => Lo.pure
  | n + 1, _ => Lo.bind0 lo_new fun _ => Lo.bind0 lo_new fun _ => Lo.bind0 lo_doFileValidation fun _ => lo_spawn n _

theorem lo_threadDestroy {t : Thread} : Lo0 (threadDestroy t) := Lo.bind0 lo_free fun _ => Lo.bind0 (lo_tableDestroy _) fun _ => lo_free

theorem lo_joinThreads : ∀ l db e, Lo0 (joinThreads l db e)
  | [], _, true => Lo.bind0 (lo_tableDestroy _) fun _ => Lo.pure
  | [], _, false => Lo.pure
  | t :: l, db, e => by
    obtain ⟨self, name, td⟩ := t
    have hbad : ∀ db, Lo0 (do threadDestroy ⟨self, name, td⟩; joinThreads l db true) := fun db => Lo.bind0 lo_threadDestroy fun _ => lo_joinThreads l _ _
    refine Lo.bind0 lo_use fun _ => ?_
    cases e <;> cases db <;> cases td
    · exact hbad _
    · exact Lo.bind0 lo_threadDestroy fun _ => lo_joinThreads l _ _
    · exact hbad _
    · exact Lo.bind0 (lo_joinRows _ _) fun _ => Lo.bind0 lo_threadDestroy fun _ => lo_joinThreads l _ _
    · exact hbad _
    · exact hbad _
    · exact hbad _
    · exact hbad _

theorem lo_performValidation : Lo0 performValidation :=
  Lo.bind0 lo_askB fun _ => Lo.ite Lo.pure (Lo.bind0 lo_ask fun _ => Lo.bind0 (lo_spawn _ _) fun _ => lo_joinThreads _ _ _)

/-! ### SLURM -/

theorem lo_wrapPut {w : Wrap} : Lo0 (wrapPut w) := Lo.ite (lo_freeAll _) Lo.pure
theorem lo_wrapPuts : ∀ l, Lo0 (wrapPuts l)
  | [] => Lo.pure
  | _ :: l => Lo.bind0 lo_wrapPut fun _ => lo_wrapPuts l
theorem lo_listsCleanup {l : Lists} : Lo0 (listsCleanup l) := Lo.bind0 (lo_wrapPuts _) fun _ => lo_wrapPuts _
theorem lo_listsDestroy {x : Id × Lists} : Lo0 (listsDestroy x) := Lo.bind0 lo_listsCleanup fun _ => lo_free
theorem lo_slurmDestroy {db : Slurm} : Lo0 (slurmDestroy db) := by
  refine Lo.bind0 lo_use fun _ => Lo.bind0 lo_listsCleanup fun _ => ?_
  cases db.cache with
  | none => exact Lo.bind0 (lo_freeAll _) fun _ => lo_free
  | some _ => exact Lo.bind0 lo_listsDestroy fun _ => Lo.bind0 (lo_freeAll _) fun _ => lo_free
theorem lo_slurmDestroyOpt : ∀ db, Lo0 (slurmDestroyOpt db)
  | none => Lo.pure
  | some _ => lo_slurmDestroy

theorem lo_decodeMember : Lo0 decodeMember := by
  refine Lo.bind0 lo_ask fun n => ?_
  match n with
  | 0 => exact Lo.pure
  | 1 => exact Lo.pure
  | 2 => exact Lo.bind0 lo_new fun _ => Lo.bind0 lo_free fun _ => Lo.pure
  | n + 3 => exact Lo.bind0 lo_new fun _ => Lo.pure

theorem lo_loadBgpsec {a : Bool} {db : Slurm} : Lo0 (loadBgpsec a db) := by
  refine Lo.bind0 lo_askB fun _ => Lo.ite Lo.pure (Lo.bind0 lo_decodeMember fun ski => ?_)
  cases ski with
  | none => exact Lo.pure
  | some ski =>
    refine Lo.bind0 lo_decodeMember fun key => ?_
    cases key with
    | none => exact Lo.bind0 (lo_freeAll _) fun _ => Lo.pure
    | some key =>
      refine Lo.bind0 lo_askB fun _ => Lo.ite (Lo.bind0 (lo_freeAll _) fun _ => Lo.bind0 (lo_freeAll _) fun _ => Lo.pure) ?_
      cases db.cache with
      | none => exact Lo.bind0 lo_crash fun _ => Lo.pure
      | some _ => exact Lo.bind0 lo_use fun _ => Lo.pure

theorem lo_dump : Lo dump (fun _ => 1) := Lo.bind0 lo_new fun _ => Lo.bind0 lo_use fun _ => lo_lose

/-- One, if there is an error. -/
abbrev one : Slurm × Bool → Nat := fun r => if r.2 then 1 else 0

theorem lo_dumped {db : Slurm} : Lo (do dump; return (db, true) : HM (Slurm × Bool)) one := Lo.bind lo_dump fun _ _ => Nat.le_refl _

theorem lo_loadBgpsecs {a : Bool} : ∀ n db, Lo (loadBgpsecs a n db) one
  | 0, _ => Lo.pure
  | n + 1, _ => by
    refine Lo.bind0 lo_loadBgpsec fun r => ?_
    obtain ⟨db, e⟩ := r
    cases e with
    | true => exact lo_dumped
    | false => exact lo_loadBgpsecs n db

theorem lo_loadPrefixes : ∀ n db, Lo (loadPrefixes n db) one
  | 0, _ => Lo.pure
  | n + 1, db => by
    refine Lo.bind0 lo_askB fun _ => Lo.ite lo_dumped ?_
    cases db.cache with
    | none => exact Lo.bind0 lo_crash fun _ => Lo.pure
    | some _ => exact Lo.bind0 lo_use fun _ => lo_loadPrefixes n _

/-- What follows if there was no error. -/
theorem Lo.next {α : Type} {m : HM (Slurm × Bool)} {k : Slurm × Bool → HM α} {g : α → Nat} (h : Lo m one) (ht : ∀ db s, ((k (db, true)) s).2.lost.length + 1 ≤ s.lost.length + g ((k (db, true)) s).1)
    (hf : ∀ db, Lo (k (db, false)) g) : Lo (m >>= k) g := by
  refine Lo.bind h fun r s => ?_
  obtain ⟨db, e⟩ := r
  cases e with
  | true => exact ht db s
  | false => exact hf db s

theorem lo_loadSection {a : Bool} {db : Slurm} : Lo (loadSection a db) one :=
  Lo.bind0 lo_askB fun _ => Lo.ite Lo.pure (Lo.bind0 lo_ask fun _ => Lo.next (lo_loadPrefixes _ _) (fun _ _ => Nat.le_refl _) fun _ => Lo.bind0 lo_ask fun _ => lo_loadBgpsecs _ _)

theorem lo_flushCache {db : Slurm} : Lo0 (flushCache db) := by
  unfold flushCache
  cases db.cache with
  | none => exact Lo.bind0 lo_crash fun _ => Lo.pure
  | some _ => exact Lo.bind0 lo_use fun _ => Lo.bind0 lo_listsDestroy fun _ => Lo.pure

theorem lo_handleJson {db : Slurm} : Lo (handleJson db) one :=
  Lo.bind0 lo_askB fun _ => Lo.ite Lo.pure (Lo.bind0 lo_new fun _ => Lo.next lo_loadSection (fun _ _ => Nat.le_refl _) fun _ =>
    Lo.next lo_loadSection (fun _ _ => Nat.le_refl _) fun _ => Lo.bind0 lo_askB fun _ => Lo.ite Lo.pure (Lo.bind0 lo_flushCache fun _ => Lo.pure))

theorem lo_slurmFiles : ∀ n db, Lo (slurmFiles n db) one
  | 0, _ => Lo.bind0 lo_askB fun _ => Lo.pure
  | n + 1, db => by
    refine Lo.bind0 lo_create fun r => ?_
    cases r with
    | none => exact Lo.pure
    | some _ => exact Lo.next lo_handleJson (fun _ _ => Nat.le_refl _) fun _ => Lo.bind0 lo_free fun _ => lo_slurmFiles n _

theorem lo_loadSlurmFiles {c : List Id} : Lo (loadSlurmFiles c) (fun r => if r.1 then 1 else 0) := by
  refine Lo.bind0 lo_new fun _ => Lo.bind0 lo_askB fun _ => Lo.ite (Lo.bind0 lo_free fun _ => Lo.pure) (Lo.bind0 lo_ask fun _ => Lo.next (lo_slurmFiles _ _) (fun db s => ?_) fun _ => ?_)
  · have := lo_slurmDestroy (db := db) s
    exact Nat.add_le_add_right this 1
  · exact Lo.ite (Lo.bind0 lo_slurmDestroy fun _ => Lo.pure) (Lo.ite (Lo.bind0 lo_slurmDestroy fun _ => Lo.pure) Lo.pure)

theorem lo_loadChecksums : ∀ n l, Lo0 (loadChecksums n l)
  | 0, _ => Lo.bind0 lo_askB fun _ => Lo.ite (Lo.bind0 (lo_freeAll _) fun _ => Lo.pure) Lo.pure
  | n + 1, _ => Lo.bind0 lo_new fun _ => Lo.bind0 lo_askB fun _ => Lo.ite (Lo.bind0 lo_free fun _ => Lo.bind0 (lo_freeAll _) fun _ => Lo.pure) (lo_loadChecksums n _)

theorem lo_updateSlurm {x : Option Slurm} : Lo (updateSlurm x) (fun _ => 1) := by
  refine Lo.bind0 lo_ask fun _ => Lo.bind0 (lo_loadChecksums _ _) fun r => ?_
  cases r with
  | none => exact Lo.pure
  | some csums =>
    have hload : Lo (do
        let (e, new, csums) ← loadSlurmFiles csums
        freeAll csums
        if e then return (x, false)
        slurmDestroyOpt x
        return (new, false) : HM (Option Slurm × Bool)) (fun _ => 1) := by
      refine Lo.bind (lo_loadSlurmFiles.mono (g := fun _ => 1) fun r => by cases r.1 <;> simp) fun r s => ?_
      have h0 : Lo0 (do freeAll r.2.2; if r.1 then return (x, false) else do slurmDestroyOpt x; return (r.2.1, false) : HM (Option Slurm × Bool)) :=
        Lo.bind0 (lo_freeAll _) fun _ => Lo.ite Lo.pure (Lo.bind0 (lo_slurmDestroyOpt _) fun _ => Lo.pure)
      exact Nat.add_le_add_right (h0 s) 1
    exact Lo.ite (Lo.bind0 (lo_slurmDestroyOpt _) fun _ => Lo.pure) <| Lo.bind0 lo_askB fun b => Lo.ite (Lo.bind0 (lo_useAll _) fun _ => Lo.bind0 (lo_freeAll _) fun _ => Lo.pure) hload

theorem lo_slurmApply {b : Table} {x : Option Slurm} : Lo (slurmApply b x) (fun _ => 1) := by
  refine Lo.bind0 lo_askB fun _ => Lo.ite Lo.pure (Lo.bind (lo_updateSlurm) fun r s => ?_)
  obtain ⟨y, e⟩ := r
  refine Nat.add_le_add_right ?_ 1
  refine (Lo.ite Lo.pure ?_ : Lo0 _) s
  cases y with
  | none => exact Lo.pure
  | some _ => exact Lo.bind0 lo_use fun _ => Lo.bind0 lo_ask fun _ => Lo.bind0 (lo_removeRows _ _) fun _ => Lo.bind0 lo_ask fun _ => Lo.bind0 (lo_addRows _ _) fun _ => Lo.pure

theorem lo_darrayAdd {lifetime : Nat} {deltas : List Id} {last : Nat} {d : Id} : Lo0 (darrayAdd lifetime deltas last d) := by
  unfold darrayAdd
  refine Lo.ite Lo.pure ?_
  simp only
  generalize deltas[if last = deltas.length - 1 then 0 else last + 1]? = x
  cases x with
  | none => exact Lo.bind0 lo_crash fun _ => Lo.pure
  | some _ => exact Lo.bind0 lo_free fun _ => Lo.pure

theorem lo_computeDeltas {a b : Table} : Lo0 (computeDeltas a b) :=
  Lo.bind0 lo_new fun _ => Lo.bind0 (lo_useAll _) fun _ => Lo.bind0 (lo_useAll _) fun _ => Lo.bind0 lo_askB fun _ => Lo.ite (Lo.bind0 lo_free fun _ => Lo.pure) Lo.pure

theorem lo_vrpsUpdate {lifetime : Nat} {st : Srv} : Lo (vrpsUpdate lifetime st) (fun _ => 1) := by
  refine Lo.bind0 lo_performValidation fun r => ?_
  cases r with
  | none => exact Lo.pure
  | some base =>
    refine Lo.bind lo_slurmApply fun r s => Nat.add_le_add_right ?_ 1
    obtain ⟨base, slurm, e⟩ := r
    refine (Lo.ite (Lo.bind0 (lo_tableDestroy _) fun _ => Lo.pure) (Lo.bind0 (lo_useAll _) fun _ => ?_) : Lo0 _) s
    cases st.base with
    | none => exact Lo.pure
    | some old =>
      refine Lo.bind0 lo_computeDeltas fun r => ?_
      cases r with
      | none => exact Lo.bind0 (lo_tableDestroy _) fun _ => Lo.pure
      | some d => exact Lo.bind0 lo_darrayAdd fun _ => Lo.bind0 (lo_tableDestroy _) fun _ => Lo.pure

theorem lo_cycles {lifetime : Nat} : ∀ n st, Lo (cycles lifetime n st) (fun _ => n)
  | 0, _ => Lo.pure
  | n + 1, st => Lo.bind lo_vrpsUpdate fun r s => by
      have := lo_cycles (lifetime := lifetime) n r s
      simp only at this ⊢
      omega

theorem lo_vrpsDestroy {st : Srv} : Lo0 (vrpsDestroy st) := Lo.bind0 (lo_slurmDestroyOpt _) fun _ => Lo.bind0 (lo_freeAll _) fun _ => lo_tableDestroy _

end Verif.Upd
