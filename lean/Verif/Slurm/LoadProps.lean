import Verif.Slurm.ParserProps
import Verif.Slurm.FilterProps
/-
C35 (conflicting files), C34 (changes are noticed), C33 (a broken SLURM keeps the last valid one), C32 (end to end), C73
(keys of BGPsec assertions).
-/
namespace Verif.Slurm
open Verif.Res
open Verif.Rtr (Fam Vrp RouterKey Table)

/-! ### C35 -/

theorem docOf_wf {env : Env} (he : env.Ok) {f : Option Json} {L : Lists} (h : DocOf env f L) : L.WF := by
  obtain ⟨root, -, h⟩ := h
  exact fileOf_wf he h

theorem docs_wf {env : Env} (he : env.Ok) {fs : List (Option Json)} {Ls : List Lists}
    (h : List.Forall₂ (DocOf env) fs Ls) : ∀ L ∈ Ls, L.WF := forall2_right (fun _ _ h => docOf_wf he h) h

theorem pairwise_noClash {Ls : List Lists} (h : ∀ L ∈ Ls, L.WF) :
    Ls.Pairwise NoClash ↔ Ls.Pairwise NoConflict :=
  ⟨fun hp => hp.imp_of_mem fun ha hb hab => (noClash_iff (h _ ha) (h _ hb)).1 hab,
   fun hp => hp.imp_of_mem fun ha hb hab => (noClash_iff (h _ ha) (h _ hb)).2 hab⟩

theorem loadSlurmFiles_ok {env : Env} (he : env.Ok) {d : Dir (Option Json)} {x : Option Lists} :
    loadSlurmFiles env d = .ok x ↔
      d.readOk = true ∧ ∃ L, DirOf env d.files L ∧ x = if L = Lists.empty then none else some L := by
  unfold loadSlurmFiles
  rw [bind_eq_ok]
  constructor
  · rintro ⟨db, h1, h2⟩
    obtain ⟨Ls, g1, -, g3, rfl⟩ := parseFiles_ok.1 h1
    rw [empty_append] at h2
    cases hr : d.readOk with
    | false => simp [hr] at h2
    | true =>
      refine ⟨rfl, Lists.concat Ls, ⟨Ls, g1, (pairwise_noClash (docs_wf he g1)).1 g3, rfl⟩, ?_⟩
      simp only [hr, Bool.not_true, Bool.false_eq_true, ite_false] at h2
      cases hd : (Lists.concat Ls).hasData with
      | false =>
        rw [if_pos ((hasData_iff _).1 hd)]
        simpa [hd, eq_comm] using h2
      | true =>
        rw [if_neg (fun h => by rw [(hasData_iff _).2 h] at hd; cases hd)]
        simpa [hd, eq_comm] using h2
  · rintro ⟨hr, L, ⟨Ls, g1, g3, rfl⟩, rfl⟩
    refine ⟨_, parseFiles_ok.2 ⟨Ls, g1, fun L _ => noClash_empty L, (pairwise_noClash (docs_wf he g1)).2 g3, rfl⟩, ?_⟩
    rw [empty_append]
    simp only [hr, Bool.not_true, Bool.false_eq_true, ite_false]
    cases hd : (Lists.concat Ls).hasData with
    | false => rw [if_pos ((hasData_iff _).1 hd)]; rfl
    | true =>
      have : Lists.concat Ls ≠ Lists.empty := fun h => by rw [(hasData_iff _).2 h] at hd; cases hd
      rw [if_neg this]; rfl

/-- **C35.** A set of SLURM files is loaded exactly when the directory can be read, each file is a SLURM file, and no two
of them conflict: no address is in the prefixes of two files, no AS number in the BGPsec rules of two files. When it is,
what is loaded are all the rules of all the files (nothing, when there are none); otherwise nothing of any file is. -/
theorem C35_conflicts (env : Env) (he : env.Ok) (d : Dir (Option Json)) (x : Option Lists) :
    loadSlurmFiles env d = .ok x ↔
      d.readOk = true ∧ ∃ Ls, List.Forall₂ (DocOf env) d.files Ls ∧ Ls.Pairwise NoConflict ∧
        x = if Lists.concat Ls = Lists.empty then none else some (Lists.concat Ls) := by
  rw [loadSlurmFiles_ok he]
  constructor
  · rintro ⟨h1, L, ⟨Ls, h2, h3, rfl⟩, h4⟩
    exact ⟨h1, Ls, h2, h3, h4⟩
  · rintro ⟨h1, Ls, h2, h3, h4⟩
    exact ⟨h1, _, ⟨Ls, h2, h3, rfl⟩, h4⟩

/-- Two files that filter 1.0.0.0/8 and AS 5 are fine; two files that both filter 1.0.0.0/8 are not. -/
example : loadSlurmFiles env0 ⟨[some (docWith [.obj [("prefix", .str [0x31, 0x2E, 0x30, 0x2E, 0x30, 0x2E, 0x30, 0x2F, 0x38])]]),
    some (docWith [.obj [("asn", .int 5)]])], true⟩ =
    .ok (some ⟨[⟨4, 0, some .v4, 0x01000000, 8, 0⟩, ⟨1, 5, none, 0, 0, 0⟩], [], [], []⟩) := rfl
example : loadSlurmFiles env0 ⟨[some (docWith [.obj [("prefix", .str [0x31, 0x2E, 0x30, 0x2E, 0x30, 0x2E, 0x30, 0x2F, 0x38])]]),
    some (docWith [.obj [("prefix", .str [0x31, 0x2E, 0x30, 0x2E, 0x30, 0x2E, 0x30, 0x2F, 0x38])]])], true⟩ = .err true := rfl
/-- `env0` is as `Env.Ok` wants. -/
theorem env0_ok : env0.Ok := ⟨by simp [env0], by simp [env0]⟩

theorem append_wf {a b : Lists} (ha : a.WF) (hb : b.WF) : (a.append b).WF := by
  refine ⟨?_, ?_, ?_, ?_⟩ <;> intro f hf <;> rcases List.mem_append.1 hf with h | h
  · exact ha.filterPfx f h
  · exact hb.filterPfx f h
  · exact ha.assertPfx f h
  · exact hb.assertPfx f h
  · exact ha.filterBgps f h
  · exact hb.filterBgps f h
  · exact ha.assertBgps f h
  · exact hb.assertBgps f h

theorem empty_wf : Lists.empty.WF := by constructor <;> simp [Lists.empty]

theorem concat_wf {Ls : List Lists} (h : ∀ L ∈ Ls, L.WF) : (Lists.concat Ls).WF := by
  induction Ls with
  | nil => exact empty_wf
  | cons a Ls ih => exact append_wf (h a (by simp)) (ih fun L hL => h L (by simp [hL]))

theorem dirOf_wf {env : Env} (he : env.Ok) {fs : List (Option Json)} {L : Lists} (h : DirOf env fs L) : L.WF := by
  obtain ⟨Ls, h1, -, rfl⟩ := h
  exact concat_wf (docs_wf he h1)

/-! ### C34 -/

theorem csumFound_iff {c : List Byte} {l : List (List Byte)} : csumFound c l = true ↔ c ∈ l := by
  induction l with
  | nil => simp [csumFound]
  | cons o os ih =>
    rw [csumFound, List.mem_cons]
    by_cases h1 : c.length = o.length
    · by_cases h2 : c = o
      · simp [h2]
      · rw [if_neg (by simpa using h1), if_neg h2, ih]; simp [h2]
    · rw [if_pos h1, ih]
      constructor
      · exact Or.inr
      · rintro (rfl | h)
        · exact absurd rfl h1
        · exact h

/-- **C34, in part.** When no two of the files have the same contents, the files are taken for unchanged exactly when
they are the same as before, perhaps in another order.
Missing from the full property: directories with two equal files, for which it is false (`C34_refuted`). -/
theorem C34_change_noticed_partial (new old : List (List Byte)) (hn : new.Nodup) :
    csumListsEqual new old = true ↔ new.Perm old := by
  unfold csumListsEqual
  by_cases hl : new.length = old.length
  · rw [if_neg (by simpa using hl)]
    simp only [List.all_eq_true, csumFound_iff]
    exact ⟨fun h => (hn.subperm h).perm_of_length_le (by omega), fun h c hc => h.subset hc⟩
  · rw [if_pos hl]
    constructor
    · intro h; cases h
    · intro h; exact absurd h.length_eq hl

example : csumListsEqual [[1], [2]] [[2], [1]] = true ∧ csumListsEqual [[1], [2]] [[3], [1]] = false := by decide

/-- **C34 is false of the code.** A directory with two SLURM files, one of which is replaced by a copy of the other: the
rules of the replaced file (here, a filter of AS 6) stay in force, and nothing says so. -/
theorem C34_refuted :
    ∃ (c1 c2 : CycleIn) (k : Kept),
      c1.csums.files = [some [1], some [2]] ∧ c2.csums.files = [some [1], some [1]] ∧
      updateSlurm env0 c1 none = .ok (some k) ∧ k.lists.filterPfx = [⟨1, 5, none, 0, 0, 0⟩, ⟨1, 6, none, 0, 0, 0⟩] ∧
      updateSlurm env0 c2 (some k) = .ok (some k) ∧
      loadSlurmFiles env0 c2.docs = .ok (some ⟨[⟨1, 5, none, 0, 0, 0⟩, ⟨1, 5, none, 0, 0, 0⟩], [], [], []⟩) :=
  ⟨⟨⟨[some [1], some [2]], true⟩, ⟨[some (docWith [.obj [("asn", .int 5)]]), some (docWith [.obj [("asn", .int 6)]])], true⟩⟩,
   ⟨⟨[some [1], some [1]], true⟩, ⟨[some (docWith [.obj [("asn", .int 5)]]), some (docWith [.obj [("asn", .int 5)]])], true⟩⟩,
   ⟨⟨[⟨1, 5, none, 0, 0, 0⟩, ⟨1, 6, none, 0, 0, 0⟩], [], [], []⟩, [[2], [1]]⟩,
   rfl, rfl, rfl, rfl, rfl, rfl⟩

/-! ### C33 -/

/-- The SLURM kept after these cycles, last one first. -/
def keptAfter (env : Env) : List (CycleIn × Table) → Option Kept
  | [] => none
  | (i, t) :: h => (slurmApply env (some i) t (keptAfter env h)).1

theorem Same.refl (a : Lists) : a.Same a := ⟨fun _ => .rfl, fun _ => .rfl, fun _ => .rfl, fun _ => .rfl⟩
theorem Same.symm {a b : Lists} (h : a.Same b) : b.Same a :=
  ⟨fun r => (h.1 r).symm, fun r => (h.2.1 r).symm, fun r => (h.2.2.1 r).symm, fun r => (h.2.2.2 r).symm⟩
theorem Same.trans {a b c : Lists} (h : a.Same b) (g : b.Same c) : a.Same c :=
  ⟨fun r => (h.1 r).trans (g.1 r), fun r => (h.2.1 r).trans (g.2.1 r), fun r => (h.2.2.1 r).trans (g.2.2.1 r),
    fun r => (h.2.2.2 r).trans (g.2.2.2 r)⟩

theorem Same.empty {a : Lists} (h : a.Same Lists.empty) : a = Lists.empty := by
  obtain ⟨a1, a2, a3, a4⟩ := a
  obtain ⟨h1, h2, h3, h4⟩ := h
  simp only [Lists.empty, List.not_mem_nil, iff_false] at h1 h2 h3 h4
  rw [List.eq_nil_iff_forall_not_mem.2 h1, List.eq_nil_iff_forall_not_mem.2 h2, List.eq_nil_iff_forall_not_mem.2 h3,
    List.eq_nil_iff_forall_not_mem.2 h4]
  rfl

theorem concat_mem (Ls : List Lists) :
    (∀ r, r ∈ (Lists.concat Ls).filterPfx ↔ ∃ L ∈ Ls, r ∈ L.filterPfx) ∧
    (∀ r, r ∈ (Lists.concat Ls).assertPfx ↔ ∃ L ∈ Ls, r ∈ L.assertPfx) ∧
    (∀ r, r ∈ (Lists.concat Ls).filterBgps ↔ ∃ L ∈ Ls, r ∈ L.filterBgps) ∧
    (∀ r, r ∈ (Lists.concat Ls).assertBgps ↔ ∃ L ∈ Ls, r ∈ L.assertBgps) := by
  induction Ls with
  | nil => simp [Lists.concat, Lists.empty]
  | cons a Ls ih =>
    obtain ⟨h1, h2, h3, h4⟩ := ih
    have e : Lists.concat (a :: Ls) = a.append (Lists.concat Ls) := rfl
    rw [e]
    simp only [Lists.append, List.mem_append, h1, h2, h3, h4, List.mem_cons, exists_eq_or_imp, implies_true, and_self]

theorem same_of_perm {As Bs : List Lists} (h : As.Perm Bs) : (Lists.concat As).Same (Lists.concat Bs) := by
  obtain ⟨h1, h2, h3, h4⟩ := concat_mem As
  obtain ⟨g1, g2, g3, g4⟩ := concat_mem Bs
  refine ⟨fun r => ?_, fun r => ?_, fun r => ?_, fun r => ?_⟩
  · rw [h1, g1]; simp only [h.mem_iff]
  · rw [h2, g2]; simp only [h.mem_iff]
  · rw [h3, g3]; simp only [h.mem_iff]
  · rw [h4, g4]; simp only [h.mem_iff]

theorem overlap_symm {p q : Pfx} (h : p.Overlap q) : q.Overlap p := by
  obtain ⟨h1, n, h2, h3⟩ := h
  exact ⟨h1.symm, n, h3, h2⟩

theorem noConflict_symm {a b : Lists} (h : NoConflict a b) : NoConflict b a :=
  ⟨fun r hr s hs p q hp hq ho => h.1 s hs r hr q p hq hp (overlap_symm ho),
   fun r hr s hs x hx => h.2 s hs r hr x hx.symm⟩

theorem dirOf_perm {env : Env} {fs gs : List (Option Json)} (h : gs.Perm fs) {L : Lists} (hL : DirOf env fs L) :
    ∃ M, DirOf env gs M ∧ M.Same L := by
  obtain ⟨Ls, h1, h2, rfl⟩ := hL
  obtain ⟨Ms, g1, g2⟩ := List.perm_comp_forall₂ h h1
  exact ⟨_, ⟨Ms, g1, (List.Perm.pairwise_iff (fun h => noConflict_symm h) g2).2 h2, rfl⟩, same_of_perm g2⟩

theorem dirOf_unique {env : Env} (he : env.Ok) {fs : List (Option Json)} {L M : Lists} (h : DirOf env fs L)
    (g : DirOf env fs M) : L = M := by
  have h1 := (loadSlurmFiles_ok he (d := ⟨fs, true⟩)).2 ⟨rfl, L, h, rfl⟩
  have h2 := (loadSlurmFiles_ok he (d := ⟨fs, true⟩)).2 ⟨rfl, M, g, rfl⟩
  rw [h1] at h2
  simp only [Out.ok.injEq] at h2
  split at h2 <;> split at h2 <;> simp_all

theorem loadChecksums_some {d : Dir (Option (List Byte))} (h1 : none ∉ d.files) (h2 : d.readOk = true) :
    ∃ cs : List (List Byte), d.files = cs.map some ∧ loadChecksums d = some cs.reverse := by
  have : ∃ cs : List (List Byte), d.files = cs.map some := by
    generalize d.files = l at h1
    induction l with
    | nil => exact ⟨[], rfl⟩
    | cons a l ih =>
      obtain ⟨cs, h⟩ := ih (fun hm => h1 (by simp [hm]))
      cases a with
      | none => simp at h1
      | some c => exact ⟨c :: cs, by simp [h]⟩
  obtain ⟨cs, h⟩ := this
  refine ⟨cs, h, ?_⟩
  unfold loadChecksums
  rw [h, h2, if_pos (by simp)]
  simp [List.reduceOption, List.filterMap_map]

theorem loadChecksums_none {d : Dir (Option (List Byte))} (h : none ∈ d.files ∨ d.readOk = false) :
    loadChecksums d = none := by
  unfold loadChecksums
  rw [if_neg]
  simp only [Bool.and_eq_true, List.all_eq_true, not_and]
  rcases h with h | h
  · intro hh; exact absurd (hh _ h) (by simp)
  · intro _; simp [h]

/-- What holds of a kept SLURM: its rules are the ones of the files with its checksums. -/
def Kept.Good (env : Env) (content : List Byte → Option Json) (k : Kept) : Prop :=
  k.lists ≠ Lists.empty ∧ ∃ M, DirOf env (k.csums.map content) M ∧ M.Same k.lists

/-- The kept SLURM is the promised one. -/
def Agree : Option Kept → Option Lists → Prop
  | none, none => True
  | some k, some L => k.lists.Same L ∧ k.lists.WF
  | _, _ => False

/-- What `update_slurm` does when the files can be hashed, up to crashes. -/
def stepKept (env : Env) (i : CycleIn) (slurm : Option Kept) : Option Kept :=
  match updateSlurm env i slurm with
  | .ok x => x
  | _ => slurm

theorem slurmApply_fst (env : Env) (i : CycleIn) (t : Table) (s : Option Kept) :
    (slurmApply env (some i) t s).1 = stepKept env i s := by
  unfold slurmApply stepKept
  simp only
  cases updateSlurm env i s with
  | ok x => cases x <;> rfl
  | err e => rfl
  | crash => rfl

theorem same_csums {env : Env} {content : List Byte → Option Json} {i : CycleIn} (hf : Faithful content i)
    {cs : List (List Byte)} (hcs : i.csums.files = cs.map some) {k : Kept} (hk : k.Good env content)
    (he : csumListsEqual cs.reverse k.csums = true) : ∃ M, DirOf env i.docs.files M ∧ M.Same k.lists := by
  obtain ⟨hn, hp⟩ := hf cs hcs
  have h1 := (C34_change_noticed_partial cs.reverse k.csums (List.nodup_reverse.2 hn)).1 he
  have h2 : i.docs.files.Perm (k.csums.map content) :=
    hp.symm.trans (((List.reverse_perm cs).symm.trans h1).map content)
  obtain ⟨-, M, hM, hs⟩ := hk
  obtain ⟨M', hM', hs'⟩ := dirOf_perm h2 hM
  exact ⟨M', hM', Same.trans hs' hs⟩

theorem updateSlurm_of (env : Env) {i : CycleIn} (s : Option Kept) {new : List (List Byte)}
    (hl : loadChecksums i.csums = some new) (hne : ¬ new.length = 0) :
    ∃ same : Bool, updateSlurm env i s = if same then .ok s else
      match loadSlurmFiles env i.docs with
      | .crash => .crash
      | .err _ => .ok s
      | .ok none => .ok none
      | .ok (some l) => .ok (some ⟨l, new⟩) := by
  unfold updateSlurm
  simp only [hl, if_neg hne]
  exact ⟨_, rfl⟩

theorem c33_inv {env : Env} (he : env.Ok) {content : List Byte → Option Json} :
    ∀ {h : List (CycleIn × Table)} (_ : ∀ c ∈ h, Faithful content c.1) {x : Option Lists}
      (_ : InForce env (h.map Prod.fst) x),
      Agree (keptAfter env h) x ∧ ∀ k, keptAfter env h = some k → k.Good env content := by
  intro h
  induction h with
  | nil =>
    intro _ x hx
    cases hx
    exact ⟨trivial, by simp [keptAfter]⟩
  | cons c h ih =>
    intro hf x hx
    obtain ⟨i, t⟩ := c
    have hfi := hf (i, t) (by simp)
    have ih := @ih (fun c hc => hf c (by simp [hc]))
    simp only [keptAfter, slurmApply_fst]
    simp only [List.map_cons] at hx
    generalize keptAfter env h = s at ih ⊢
    cases hx with
    | unreadable hx hu =>
      have : stepKept env i s = s := by simp [stepKept, updateSlurm, loadChecksums_none hu]
      rw [this]; exact ih hx
    | noFiles hx h1 h2 =>
      have : stepKept env i s = none := by
        simp [stepKept, updateSlurm, loadChecksums, h1, h2, List.reduceOption]
      rw [this]; exact ⟨trivial, by simp⟩
    | bad hx h1 h2 h3 h4 =>
      obtain ⟨cs, hcs, hl⟩ := loadChecksums_some h1 h2
      have hne : ¬ cs.reverse.length = 0 := by
        intro h; apply h3; rw [hcs]; simp at h; simp [h]
      have : stepKept env i s = s := by
        obtain ⟨same, hu⟩ := updateSlurm_of env s hl hne
        unfold stepKept
        rw [hu]
        cases same with
        | true => rfl
        | false =>
          simp only [Bool.false_eq_true, ite_false]
          cases hlo : loadSlurmFiles env i.docs with
          | crash => rfl
          | err e => rfl
          | ok y =>
            obtain ⟨g1, L, g2, -⟩ := (loadSlurmFiles_ok he).1 hlo
            rcases h4 with h4 | h4
            · rw [g1] at h4; cases h4
            · exact absurd ⟨L, g2⟩ h4
      rw [this]; exact ih hx
    | noRules hx h1 h2 h3 h4 h5 =>
      obtain ⟨cs, hcs, hl⟩ := loadChecksums_some h1 h2
      have hne : ¬ cs.reverse.length = 0 := by
        intro h; apply h3; rw [hcs]; simp at h; simp [h]
      have hlo := (loadSlurmFiles_ok he (d := i.docs)).2 ⟨h4, _, h5, rfl⟩
      rw [if_pos rfl] at hlo
      have : stepKept env i s = none := by
        unfold stepKept updateSlurm
        simp only [hl, if_neg hne, hlo]
        cases s with
        | none => rfl
        | some k =>
          by_cases hq : csumListsEqual cs.reverse k.csums = true
          · obtain ⟨M, hM, hs⟩ := same_csums hfi hcs ((ih hx).2 k rfl) hq
            rw [dirOf_unique he hM h5] at hs
            exact absurd (Same.empty (Same.symm hs)) ((ih hx).2 k rfl).1
          · simp [hq]
      rw [this]; exact ⟨trivial, by simp⟩
    | @loaded _ _ _ L hx h1 h2 h3 h4 h5 h6 =>
      obtain ⟨cs, hcs, hl⟩ := loadChecksums_some h1 h2
      have hne : ¬ cs.reverse.length = 0 := by
        intro h; apply h3; rw [hcs]; simp at h; simp [h]
      have hlo := (loadSlurmFiles_ok he (d := i.docs)).2 ⟨h4, _, h5, rfl⟩
      rw [if_neg h6] at hlo
      have fresh : Agree (some ⟨L, cs.reverse⟩) (some L) ∧
          ∀ k : Kept, some (⟨L, cs.reverse⟩ : Kept) = some k → k.Good env content := by
        refine ⟨⟨Same.refl L, dirOf_wf he h5⟩, ?_⟩
        rintro k hk
        cases hk
        refine ⟨h6, dirOf_perm ?_ h5⟩
        exact ((List.reverse_perm cs).map content).trans (hfi cs hcs).2
      unfold stepKept updateSlurm
      simp only [hl, if_neg hne, hlo]
      cases s with
      | none => exact fresh
      | some k =>
        by_cases hq : csumListsEqual cs.reverse k.csums = true
        · obtain ⟨M, hM, hs⟩ := same_csums hfi hcs ((ih hx).2 k rfl) hq
          rw [dirOf_unique he hM h5] at hs
          simp only [hq, if_true]
          refine ⟨⟨Same.symm hs, ?_⟩, (ih hx).2⟩
          have hw := dirOf_wf he h5
          exact ⟨fun f hf => hw.filterPfx f ((hs.1 f).2 hf), fun f hf => hw.assertPfx f ((hs.2.1 f).2 hf),
            fun f hf => hw.filterBgps f ((hs.2.2.1 f).2 hf), fun f hf => hw.assertBgps f ((hs.2.2.2 f).2 hf)⟩
        · simp only [hq]; exact fresh

/-- `InForce` says something of every history. -/
theorem inForce_total (env : Env) (h : List CycleIn) : ∃ x, InForce env h x := by
  induction h with
  | nil => exact ⟨none, .start⟩
  | cons i h ih =>
    obtain ⟨x, hx⟩ := ih
    by_cases h1 : none ∈ i.csums.files
    · exact ⟨x, .unreadable hx (Or.inl h1)⟩
    cases h2 : i.csums.readOk
    · exact ⟨x, .unreadable hx (Or.inr h2)⟩
    by_cases h3 : i.csums.files = []
    · exact ⟨none, .noFiles hx h3 h2⟩
    cases h4 : i.docs.readOk
    · exact ⟨x, .bad hx h1 h2 h3 (Or.inl h4)⟩
    by_cases h5 : ∃ L, DirOf env i.docs.files L
    · obtain ⟨L, h5⟩ := h5
      by_cases h6 : L = Lists.empty
      · subst h6; exact ⟨none, .noRules hx h1 h2 h3 h4 h5⟩
      · exact ⟨some L, .loaded hx h1 h2 h3 h4 h5 h6⟩
    · exact ⟨x, .bad hx h1 h2 h3 (Or.inr h5)⟩

/-- **C33.** After any history of cycles the kept SLURM is the one in force (`InForce`): the rules of the last good set
of files, none when there never was one or the last good set was empty; broken and unreadable files change nothing. The
assumption is that the checksums tell the contents of the files. -/
theorem C33_last_valid (env : Env) (he : env.Ok) (content : List Byte → Option Json) (h : List (CycleIn × Table))
    (hf : ∀ c ∈ h, Faithful content c.1) (x : Option Lists) (hx : InForce env (h.map Prod.fst) x) :
    match keptAfter env h, x with
    | none, none => True
    | some k, some L => k.lists.Same L ∧ k.lists.WF
    | _, _ => False := by
  have := (c33_inv he hf hx).1
  cases hk : keptAfter env h <;> cases x <;> simpa [hk, Agree] using this

/-- **C33 and C32, end to end.** What a cycle makes of the validated payloads `t`. If the files cannot be hashed the
cycle fails (and nothing is published). Otherwise, unless the parser crashes (C36), the result is `t` untouched when no
SLURM is in force, and `t` minus what the rules in force filter plus what they assert when one is. -/
theorem C33_applied (env : Env) (he : env.Ok) (content : List Byte → Option Json) (h : List (CycleIn × Table))
    (i : CycleIn) (t : Table) (ht : t.WF) (hk : ∀ k ∈ t.keys, k.ski.length = 20)
    (hf : ∀ c ∈ (i, t) :: h, Faithful content c.1) (x : Option Lists) (hx : InForce env (i :: h.map Prod.fst) x)
    (hc : loadSlurmFiles env i.docs ≠ .crash) :
    (none ∈ i.csums.files ∨ i.csums.readOk = false →
      slurmApply env (some i) t (keptAfter env h) = (keptAfter env h, .err false)) ∧
    (none ∉ i.csums.files → i.csums.readOk = true →
      ∃ t', (slurmApply env (some i) t (keptAfter env h)).2 = .ok t' ∧
        match x with
        | none => t' = t
        | some L =>
          (∀ v, v ∈ t'.vrpSet ↔
            (v ∈ t.vrpSet ∧ ¬ ∃ f ∈ L.filterPfx, f.Matches v) ∨ ∃ p ∈ L.assertPfx, p.IsVrp v) ∧
          (∀ k, k ∈ t'.keySet ↔
            (k ∈ t.keySet ∧ ¬ ∃ f ∈ L.filterBgps, f.Matches k) ∨
              ∃ b ∈ L.assertBgps, k = ⟨b.ski.take 20, b.asn, b.spk.take 91⟩)) := by
  constructor
  · intro hu
    simp [slurmApply, updateSlurm, loadChecksums_none hu]
  · intro h1 h2
    have inv := c33_inv he hf (x := x) hx
    simp only [keptAfter, slurmApply_fst] at inv
    obtain ⟨cs, hcs, hl⟩ := loadChecksums_some h1 h2
    have hok : ∃ y, updateSlurm env i (keptAfter env h) = .ok y := by
      by_cases hne : cs.reverse.length = 0
      · exact ⟨none, by simp [updateSlurm, hl, hne]⟩
      · obtain ⟨same, hu⟩ := updateSlurm_of env (keptAfter env h) hl hne
        rw [hu]
        cases same with
        | true => exact ⟨_, rfl⟩
        | false =>
          simp only [Bool.false_eq_true, ite_false]
          cases hlo : loadSlurmFiles env i.docs with
          | crash => exact absurd hlo hc
          | err e => exact ⟨_, rfl⟩
          | ok y => cases y <;> exact ⟨_, rfl⟩
    obtain ⟨y, hy⟩ := hok
    have hs : stepKept env i (keptAfter env h) = y := by simp [stepKept, hy]
    rw [hs] at inv
    unfold slurmApply
    simp only [hy]
    cases y with
    | none =>
      cases x with
      | none => exact ⟨t, rfl, rfl⟩
      | some L => exact absurd inv.1 (by simp [Agree])
    | some k =>
      cases x with
      | none => exact absurd inv.1 (by simp [Agree])
      | some L =>
        obtain ⟨⟨hsame, hw⟩, -⟩ := inv
        obtain ⟨t', g1, -, g2, g3⟩ := C32_apply k.lists hw t ht hk
        refine ⟨t', g1, ?_, ?_⟩
        · intro v; rw [g2]; simp only [hsame.1, hsame.2.1]
        · intro v; rw [g3]; simp only [hsame.2.2.1, hsame.2.2.2]

/-- Without a configured SLURM nothing is applied. -/
theorem C33_not_configured (env : Env) (t : Table) (s : Option Kept) : slurmApply env none t s = (s, .ok t) := rfl

/-- No payloads. -/
def emptyTable : Table := ⟨[], []⟩

/-- Three cycles: a good file, a broken one, no file. -/
def good5 : CycleIn := ⟨⟨[some [1]], true⟩, ⟨[some (docWith [.obj [("asn", .int 5)]])], true⟩⟩
/-- A file that is not JSON. -/
def broken : CycleIn := ⟨⟨[some [9]], true⟩, ⟨[none], true⟩⟩
/-- An empty directory. -/
def noFile : CycleIn := ⟨⟨[], true⟩, ⟨[], true⟩⟩

example : (keptAfter env0 [(broken, emptyTable), (good5, emptyTable)]).map Kept.csums = some [[1]] := by decide
example : (keptAfter env0 [(noFile, emptyTable), (broken, emptyTable), (good5, emptyTable)]).isNone := by decide
example : (keptAfter env0 [(broken, emptyTable)]).isNone := by decide
/-- They meet the assumption of `C33_last_valid`. -/
example : ∀ c ∈ [good5, broken, noFile],
    Faithful (fun b => if b = [1] then some (docWith [.obj [("asn", .int 5)]]) else none) c := by
  intro c hc cs h
  simp only [List.mem_cons, List.not_mem_nil, or_false] at hc
  rcases hc with rfl | rfl | rfl
  · have : cs = [[1]] := by
      have : cs.map some = ([[1]] : List (List Byte)).map some := h.symm
      exact List.map_injective_iff.2 (Option.some_injective _) this
    subst this
    exact ⟨by decide, .refl _⟩
  · have : cs = [[9]] := by
      have : cs.map some = ([[9]] : List (List Byte)).map some := h.symm
      exact List.map_injective_iff.2 (Option.some_injective _) this
    subst this
    exact ⟨by decide, .refl _⟩
  · have : cs = [] := by
      have : cs.map some = ([] : List (List Byte)).map some := h.symm
      simpa using this
    subst this
    exact ⟨by decide, .refl _⟩

/-! ### C73 -/

/-- **C73, in part.** A BGPsec assertion that is accepted and applied is announced as a router key with the AS number and
the key identifier of the file, and with the key of the file when the key has 91 bytes. Nothing is read out of bounds.
Missing from the full property: keys of another length, for which it is false (`C73_refuted`). -/
theorem C73_asserted_key_partial (env : Env) (he : env.Ok) (o : List (String × Json)) (r : SBgpsec)
    (h : parseBgpsec env (.obj o) true = .ok r) (t : Table) :
    ∃ a ski key, BgpsMembers.Of env o ⟨some a, some ski, some key, (o.lookup "comment").isSome⟩ ∧
      ∃ k, bgpsecAssertionAdd t r = .ok (t.addKey k) ∧ k.as = a ∧ k.ski = ski ∧ (key.length = 91 → k.spk = key) := by
  have hw := parseBgpsec_assertion he h
  obtain ⟨m, h1, h2, -, h4⟩ := parseBgpsec_sound h
  have e1 := stored_asn h4
  have e2 := stored_ski h1 h4
  obtain ⟨asn, ski, key, c⟩ := m
  simp only [BgpsMembers.Valid, if_true] at h2
  obtain ⟨v1, v2, v3⟩ := h2
  cases asn with
  | none => exact absurd rfl v1
  | some a =>
  cases ski with
  | none => exact absurd rfl v2
  | some ski =>
  cases key with
  | none => exact absurd rfl v3
  | some key =>
  have hc : (o.lookup "comment").isSome = c := by
    have := h1.comment
    cases c with
    | false => simp only [Bool.false_eq_true, ite_false] at this; rw [this]; rfl
    | true => simp only [if_true] at this; obtain ⟨s, hs⟩ := this; simp [hs]
  refine ⟨a, ski, key, by rw [hc]; exact h1, ⟨r.ski.take 20, r.asn, r.spk.take 91⟩, ?_, ?_, ?_, ?_⟩
  · unfold bgpsecAssertionAdd
    rw [if_neg]
    have := hw.skiLen
    have := hw.spkLen
    omega
  · unfold SBgpsec.asn? at e1
    split at e1
    · simpa using e1
    · cases e1
  · unfold SBgpsec.ski? at e2
    split at e2
    · simpa using e2
    · cases e2
  · intro hk
    obtain ⟨z, hz⟩ := h4.key key rfl
    simp [hz, ← hk]

/-- A world in which a compressed key is accepted: base64 of "AAAA..." gives zeros, 3 bytes for 4 characters, and a
SubjectPublicKeyInfo of 60 bytes (a P-256 key in compressed form has 59) is good. -/
def env1 : Env where
  pton4 _ := none
  pton6 _ := none
  b64 s := some (List.replicate (s.length / 4 * 3 - s.count 0x3D) 1)
  spkiOk d := decide (10 ≤ d.length)

/-- **C73 is false of the code.** The length of the key of a BGPsec assertion is never looked at: a key of 60 bytes is
accepted, and announced with 31 zeros after it. -/
theorem C73_refuted : env1.Ok ∧ ∃ r k,
    parseBgpsec env1 (.obj [("asn", .int 5), ("SKI", .str (List.replicate 27 0x41)),
      ("routerPublicKey", .str (List.replicate 80 0x41))]) true = .ok r ∧
    bgpsecAssertionAdd emptyTable r = .ok (emptyTable.addKey k) ∧
    k.spk = List.replicate 60 1 ++ List.replicate 31 0 := by
  refine ⟨⟨?_, ?_⟩, ⟨13, 5, List.replicate 20 1 ++ List.replicate 82 0, List.replicate 60 1 ++ List.replicate 81 0⟩,
    ⟨List.replicate 20 1, 5, List.replicate 60 1 ++ List.replicate 31 0⟩, by decide +kernel, by decide +kernel, rfl⟩
  · intro s d h
    simp only [env1, Option.some.injEq] at h
    rw [← h, List.length_replicate]
    omega
  · intro d h
    simpa [env1] using h

end Verif.Slurm
