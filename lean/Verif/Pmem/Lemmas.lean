import Verif.Pmem.Spec
import Verif.Heap.Lost
/-
Lemmas for Verif/Pmem/Props.lean.
-/
namespace Verif.Pmem
open Verif.Heap

/-! ### Who owns what -/

theorem t_freeP {L : List Id} (p : Ptr) : Tri (Own (p.toList ++ L)) (freeP p) (fun _ => Own L) := by
  cases p with
  | none => exact Tri.pure fun _ h => h
  | some i => exact t_free

theorem t_freePerm {L L' : List Id} {i : Id} (h : ∀ j, L'.count j = (i :: L).count j) : Tri (Own L') (free i) (fun _ => Own L) := Tri.perm t_free h

theorem t_read {L : List Id} (b : Bio) : Tri (Own (b.objs ++ L)) (read b) (fun b => Own (b.objs ++ L)) := by
  cases b with
  | plain b => exact Tri.bind (t_use (by simp [Bio.objs])) fun _ => Tri.pure fun _ h => h
  | seq b priv before after =>
    cases before with
    | none =>
      exact Tri.bind (t_use (by simp [Bio.objs])) fun _ => Tri.bind (t_use (by simp [Bio.objs])) fun _ => Tri.bind (t_use (by simp [Bio.objs])) fun _ => Tri.pure fun _ h => h
    | some p =>
      refine Tri.bind (t_use (by simp [Bio.objs])) fun _ => Tri.bind (t_use (by simp [Bio.objs])) fun _ => Tri.bind (t_use (by simp [Bio.objs])) fun _ =>
        Tri.bind t_askB fun d => Tri.ite (fun _ => ?_) fun _ => Tri.pure fun _ h => h
      refine Tri.bind (Q := fun _ => Own ((Bio.seq b priv none after).objs ++ L)) (t_freePerm fun j => ?_) fun _ => Tri.pure fun _ h => h
      simp only [Bio.objs, Option.toList, List.count_append, List.count_cons, List.count_nil]; omega

theorem t_reads {L : List Id} : ∀ n (b : Bio), Tri (Own (b.objs ++ L)) (reads n b) (fun b => Own (b.objs ++ L))
  | 0, _ => Tri.pure fun _ h => h
  | n + 1, b => Tri.bind (t_read b) fun b => t_reads n b

/-- What an optional BIO has. -/
def objsO (b : Option Bio) : List Id := (b.map Bio.objs).getD []

theorem t_freeBio {L : List Id} {m : Id} (hm : m ∈ L) (b : Option Bio) : Tri (Own (objsO b ++ L)) (freeBio m b) (fun _ => Own L) := by
  cases b with
  | none => exact Tri.pure fun _ h => h
  | some b =>
    cases b with
    | plain b => exact t_free
    | seq b priv before after =>
      refine Tri.bind (t_use (by simp [objsO, Bio.objs])) fun _ => Tri.bind (t_use (by simp [hm])) fun _ => Tri.bind (t_use (by simp [objsO, Bio.objs])) fun _ => ?_
      refine Tri.bind (Q := fun _ => Own (after :: priv :: b :: L)) (Tri.perm (t_freeP before) fun j => ?_) fun _ =>
        Tri.bind t_free fun _ => Tri.bind t_free fun _ => t_free
      simp only [objsO, Option.map_some, Option.getD_some, Bio.objs, List.cons_append, List.count_append, List.count_cons]; omega

theorem t_createIf {L : List Id} (oom : Bool) : Tri (Own L) (createIf oom) (fun r => Own (r.toList ++ L)) := by
  cases oom with
  | false => exact Tri.bind t_new fun x => Tri.pure fun _ h => h
  | true => exact t_create

theorem t_newSeq {L : List Id} {m : Id} (hm : m ∈ L) (oom : Bool) (a : Id) : Tri (Own (a :: L)) (newSeq oom m a) (fun r => Own (objsO r ++ L)) := by
  refine Tri.bind (t_createIf oom) fun x => ?_
  cases x with
  | none => exact Tri.bind (t_lose : Tri (Own (a :: L)) (lose a) _) fun _ => Tri.pure fun _ h => h
  | some p =>
    refine Tri.bind (t_use (by simp [hm])) fun _ => Tri.bind (t_createIf oom) fun x => ?_
    cases x with
    | none => exact Tri.bind (t_lose : Tri (Own (p :: a :: L)) (lose p) _) fun _ => Tri.bind t_lose fun _ => Tri.pure fun _ h => h
    | some b =>
      refine Tri.bind t_new fun v => Tri.pure fun _ h => h.perm fun j => ?_
      simp only [objsO, Option.map_some, Option.getD_some, Bio.objs, Option.toList, List.cons_append, List.nil_append, List.count_cons]; omega

theorem t_look {L : List Id} : Tri (Own L) look (fun _ => Own L) := Tri.bind t_ask fun _ => Tri.pure fun _ h => h

theorem t_guess {L : List Id} {m : Id} (hm : m ∈ L) (oom : Bool) (given : Option Kind) (b : Id) :
    Tri (Own (b :: L)) (guessFileType oom m given b) (fun r s => Own (objsO r.2 ++ L) s ∧ (r.2 = none → r.1 = .err)) := by
  cases given with
  | some k => exact Tri.pure fun _ h => ⟨h, fun e => by simp at e⟩
  | none =>
    refine Tri.bind (t_use List.mem_cons_self) fun _ => Tri.bind t_askB fun f => Tri.ite (fun _ => Tri.pure fun _ h => ⟨h, fun e => by simp at e⟩) fun _ => ?_
    refine Tri.bind (t_newSeq hm oom b) fun r => ?_
    cases r with
    | none => exact Tri.pure fun _ h => ⟨h, fun _ => rfl⟩
    | some b => exact Tri.bind t_look fun k => Tri.pure fun _ h => ⟨h, fun e => by simp at e⟩

theorem t_berDecode {L : List Id} (ci : Ptr) : Tri (Own (ci.toList ++ L)) (berDecode ci) (fun r => Own (r.2.toList ++ L)) := by
  unfold berDecode
  refine Tri.bind t_ask fun n => ?_
  cases ci with
  | some i => exact Tri.bind (t_use (by simp)) fun _ => Tri.pure fun _ h => h
  | none =>
    match n with
    | 0 => exact Tri.bind t_new fun x => Tri.pure fun _ h => h
    | 1 => exact Tri.bind t_create fun x => Tri.pure fun _ h => h
    | n + 2 => exact Tri.bind t_create fun x => Tri.pure fun _ h => h

theorem t_bio2ci {L : List Id} : ∀ n (b : Bio) (ci : Ptr), Tri (Own (ci.toList ++ (b.objs ++ L))) (bio2ci n b ci) (fun r => Own (r.1.toList ++ (r.2.objs ++ L)))
  | 0, b, ci => Tri.bind (t_freeP ci) fun _ => Tri.pure fun _ h => h
  | n + 1, b, ci => by
    refine Tri.bind (Q := fun b => Own (ci.toList ++ (b.objs ++ L))) ?_ fun b => Tri.bind t_askB fun e => Tri.ite (fun _ => ?_) fun _ => ?_
    · refine (Tri.perm (t_read (L := ci.toList ++ L) b) fun j => ?_).weaken (fun _ h => h) fun b s h => h.perm fun j => ?_
      all_goals simp only [List.count_append]; omega
    · exact Tri.bind (t_freeP ci) fun _ => Tri.pure fun _ h => h
    · refine Tri.bind (t_berDecode ci) fun r => ?_
      obtain ⟨c, ci⟩ := r
      cases c with
      | ok => exact Tri.pure fun _ h => h
      | more => exact t_bio2ci n b ci
      | fail => exact Tri.bind (t_freeP ci) fun _ => Tri.pure fun _ h => h

theorem t_useDoc {L : List Id} (x : Id) (b : Bio) : Tri (Own (x :: (b.objs ++ L))) (do use x; let json ← create; free x; return (json, b) : HM (Ptr × Bio))
    (fun r => Own (r.1.toList ++ (r.2.objs ++ L))) :=
  Tri.bind (t_use List.mem_cons_self) fun _ => Tri.bind t_create fun j => Tri.bind (Q := fun _ => Own (j.toList ++ (b.objs ++ L))) (t_freePerm fun i => by
    simp only [List.count_append, List.count_cons]; omega) fun _ => Tri.pure fun _ h => h

theorem t_asn1c2json {L : List Id} (b : Bio) : Tri (Own (b.objs ++ L)) (asn1c2json b) (fun r => Own (r.1.toList ++ (r.2.objs ++ L))) := by
  refine Tri.bind t_ask fun n => Tri.bind (t_bio2ci n b none) fun r => ?_
  obtain ⟨ci, b⟩ := r
  cases ci with
  | none => exact Tri.pure fun _ h => h
  | some x => exact t_useDoc x b

theorem t_bio2json {L : List Id} (b : Bio) : Tri (Own (b.objs ++ L)) (bio2json b) (fun r => Own (r.1.toList ++ (r.2.objs ++ L))) := by
  refine Tri.bind t_ask fun n => Tri.bind (t_reads n b) fun b => Tri.bind t_create fun x => ?_
  cases x with
  | none => exact Tri.pure fun _ h => h
  | some x => exact t_useDoc x b

theorem t_rsync2bio' {L : List Id} : Tri (Own L) rsync2bio' (fun r => Own (r.toList ++ L)) :=
  Tri.bind t_askB fun _ => Tri.ite (fun _ => Tri.pure fun _ h => h) fun _ => t_create

theorem t_around {L : List Id} (x : Id) : Tri (Own (x :: L)) (do let bio ← rsync2bio'; free x; return bio : HM (Option Id)) (fun r => Own (r.toList ++ L)) :=
  Tri.bind t_rsync2bio' fun r => Tri.bind (Q := fun _ => Own (r.toList ++ L)) (t_freePerm fun i => by
    simp only [List.count_append, List.count_cons]; omega) fun _ => Tri.pure fun _ h => h

theorem t_filename2bio {L : List Id} (w : Where) : Tri (Own L) (filename2bio w) (fun r => Own (r.toList ++ L)) := by
  cases w with
  | local_ => exact t_create
  | rsyncTmp =>
    refine Tri.bind t_askB fun _ => Tri.ite (fun _ => Tri.pure fun _ h => h) fun _ => Tri.bind t_new fun pb => Tri.bind (t_use List.mem_cons_self) fun _ => ?_
    refine Tri.bind t_askB fun _ => Tri.ite (fun _ => Tri.bind t_free fun _ => Tri.pure fun _ h => h) fun _ => Tri.bind (t_use List.mem_cons_self) fun _ => ?_
    exact Tri.bind t_askB fun _ => Tri.ite (fun _ => Tri.bind t_free fun _ => Tri.pure fun _ h => h) fun _ => t_around pb
  | rsyncCache =>
    refine Tri.bind t_create fun u => ?_
    cases u with
    | none => exact Tri.pure fun _ h => h
    | some u => exact Tri.bind (t_use List.mem_cons_self) fun _ => t_around u

theorem t_parse {L : List Id} (k : Kind) (b : Option Bio) (hk : b = none → k = .err) : Tri (Own (objsO b ++ L)) (parse k b) (fun r => Own (objsO r.2 ++ (r.1.toList ++ L))) := by
  cases b with
  | none =>
    obtain rfl := hk rfl
    exact Tri.pure fun _ h => h
  | some b =>
    have conv : ∀ {m : HM (Ptr × Bio)}, Tri (Own (b.objs ++ L)) m (fun r => Own (r.1.toList ++ (r.2.objs ++ L))) →
        Tri (Own (b.objs ++ L)) (do let r ← m; return (r.1, some r.2) : HM (Ptr × Option Bio)) (fun r => Own (objsO r.2 ++ (r.1.toList ++ L))) :=
      fun h => Tri.bind h fun r => Tri.pure fun _ h => h.perm fun i => by
        simp only [objsO, Option.map_some, Option.getD_some, List.count_append]; omega
    cases k with
    | signed => exact conv (t_asn1c2json b)
    | certificate => exact conv (t_bio2json b)
    | crl => exact conv (t_bio2json b)
    | unknown => exact Tri.pure fun _ h => h
    | err => exact Tri.pure fun _ h => h

theorem t_write {L : List Id} (p : Ptr) : Tri (Own (p.toList ++ L)) (write p) (fun _ => Own L) := by
  cases p with
  | none => exact Tri.pure fun _ h => h
  | some j => exact Tri.bind (t_use List.mem_cons_self) fun _ => Tri.bind t_askB fun _ => Tri.bind t_free fun _ => Tri.pure fun _ h => h

theorem t_printFile' {L : List Id} {m : Id} (hm : m ∈ L) (oom : Bool) (w : Where) (given : Option Kind) : Tri (Own L) (printFile' oom m w given) (fun _ => Own L) := by
  refine Tri.bind (t_filename2bio w) fun x => ?_
  cases x with
  | none => exact Tri.pure fun _ h => h
  | some b =>
    refine Tri.bind (t_guess hm oom given b) fun r => ?_
    obtain ⟨k, b⟩ := r
    have main : k ≠ .unknown → Tri (fun s => Own (objsO b ++ L) s ∧ (b = none → k = .err)) (do let r ← parse k b; freeBio m r.2; write r.1 : HM Bool) (fun _ => Own L) := fun _ =>
      Tri.pre fun hk => Tri.bind (t_parse k b hk) fun r => Tri.bind (t_freeBio (List.mem_append_right _ hm) r.2) fun _ => t_write r.1
    cases k with
    | unknown => exact Tri.pre fun _ => Tri.bind (t_freeBio hm b) fun _ => Tri.pure fun _ h => h
    | _ => exact main (by simp)

theorem t_printFile (oom : Bool) (w : Where) (given : Option Kind) : Tri (Own []) (printFile oom w given) (fun _ => Own []) := by
  have hs : Tri (Own []) setup (fun r => Own (r.toList ++ [])) := by
    refine Tri.bind t_askB fun _ => Tri.ite (fun _ => Tri.pure fun _ h => h) fun _ => Tri.bind t_create fun m => ?_
    cases m with
    | none => exact Tri.pure fun _ h => h
    | some m => exact Tri.bind (t_use List.mem_cons_self) fun _ => Tri.bind t_askB fun _ => Tri.ite (fun _ => Tri.bind t_free fun _ => Tri.pure fun _ h => h) fun _ => Tri.pure fun _ h => h
  refine Tri.bind hs fun m => ?_
  cases m with
  | none => exact Tri.pure fun _ h => h
  | some m => exact Tri.bind (t_printFile' List.mem_cons_self oom w given) fun r => Tri.bind t_free fun _ => Tri.pure fun _ h => h

/-! ### What's lost -/

/-- `m` loses at most `n` objects. -/
abbrev LoN {α : Type} (m : HM α) (n : Nat) : Prop := Lo m (fun _ => n)

theorem LoN.bind {α β : Type} {m : HM α} {k : α → HM β} {a b : Nat} (h : LoN m a) (hk : ∀ x, LoN (k x) b) : LoN (m >>= k) (a + b) :=
  Lo.bind h fun x s => by
    have h1 : ((k x) s).2.lost.length ≤ s.lost.length + b := hk x s
    show ((k x) s).2.lost.length + a ≤ s.lost.length + (a + b)
    omega

theorem LoN.bindL {α β : Type} {m : HM α} {k : α → HM β} {a : Nat} (h : LoN m a) (hk : ∀ x, Lo0 (k x)) : LoN (m >>= k) a := LoN.bind (b := 0) h hk

theorem lo_freeP (p : Ptr) : Lo0 (freeP p) := by
  cases p with
  | none => exact Lo.pure
  | some i => exact lo_free

theorem lo_read (b : Bio) : Lo0 (read b) := by
  cases b with
  | plain b => exact Lo.bind0 lo_use fun _ => Lo.pure
  | seq b priv before after =>
    cases before with
    | none => exact Lo.bind0 lo_use fun _ => Lo.bind0 lo_use fun _ => Lo.bind0 lo_use fun _ => Lo.pure
    | some p =>
      exact Lo.bind0 lo_use fun _ => Lo.bind0 lo_use fun _ => Lo.bind0 lo_use fun _ => Lo.bind0 lo_askB fun _ => Lo.ite (Lo.bind0 lo_free fun _ => Lo.pure) Lo.pure

theorem lo_reads : ∀ n b, Lo0 (reads n b)
  | 0, _ => Lo.pure
  | n + 1, b => Lo.bind0 (lo_read b) fun b => lo_reads n b

theorem lo_freeBio (m : Id) (b : Option Bio) : Lo0 (freeBio m b) := by
  cases b with
  | none => exact Lo.pure
  | some b =>
    cases b with
    | plain b => exact lo_free
    | seq b priv before after =>
      exact Lo.bind0 lo_use fun _ => Lo.bind0 lo_use fun _ => Lo.bind0 lo_use fun _ => Lo.bind0 (lo_freeP _) fun _ => Lo.bind0 lo_free fun _ => Lo.bind0 lo_free fun _ => lo_free

/-- How much `newSeq` loses. -/
def most (oom : Bool) : Nat := if oom then 2 else 0

theorem lo_newSeq (oom : Bool) (m a : Id) : LoN (newSeq oom m a) (most oom) := by
  cases oom with
  | false =>
    have : newSeq false m a = (do let p ← new; use m; let b ← new; let v ← new; return some (.seq b v (some p) a) : HM (Option Bio)) := rfl
    rw [this]
    exact Lo.bind0 lo_new fun _ => Lo.bind0 lo_use fun _ => Lo.bind0 lo_new fun _ => Lo.bind0 lo_new fun _ => Lo.pure
  | true =>
    refine Lo.bind0 (lo_create : Lo0 (createIf true)) fun x => ?_
    cases x with
    | none => exact Lo.mono (LoN.bindL (a := 1) lo_lose fun _ => Lo.pure) fun _ => by decide
    | some p =>
      refine Lo.bind0 lo_use fun _ => Lo.bind0 (lo_create : Lo0 (createIf true)) fun x => ?_
      cases x with
      | none => exact LoN.bind (a := 1) (b := 1) lo_lose fun _ => LoN.bindL lo_lose fun _ => Lo.pure
      | some b => exact Lo.bind0 lo_new fun _ => Lo.pure

theorem lo_guess (oom : Bool) (m : Id) (given : Option Kind) (b : Id) : LoN (guessFileType oom m given b) (most oom) := by
  cases given with
  | some k => exact Lo.pure
  | none =>
    refine Lo.bind0 lo_use fun _ => Lo.bind0 lo_askB fun f => Lo.ite Lo.pure ?_
    refine LoN.bindL (lo_newSeq oom m b) fun r => ?_
    cases r with
    | none => exact Lo.pure
    | some b => exact Lo.bind0 (Lo.bind0 lo_ask fun _ => Lo.pure : Lo0 look) fun k => Lo.pure

theorem lo_berDecode (ci : Ptr) : Lo0 (berDecode ci) := by
  unfold berDecode
  refine Lo.bind0 lo_ask fun n => ?_
  cases ci with
  | some i => exact Lo.bind0 lo_use fun _ => Lo.pure
  | none =>
    match n with
    | 0 => exact Lo.bind0 lo_new fun x => Lo.pure
    | 1 => exact Lo.bind0 lo_create fun x => Lo.pure
    | n + 2 => exact Lo.bind0 lo_create fun x => Lo.pure

theorem lo_bio2ci : ∀ n b ci, Lo0 (bio2ci n b ci)
  | 0, _, ci => Lo.bind0 (lo_freeP ci) fun _ => Lo.pure
  | n + 1, b, ci => by
    refine Lo.bind0 (lo_read b) fun b => Lo.bind0 lo_askB fun e => Lo.ite (Lo.bind0 (lo_freeP ci) fun _ => Lo.pure) ?_
    refine Lo.bind0 (lo_berDecode ci) fun r => ?_
    obtain ⟨c, ci⟩ := r
    cases c with
    | ok => exact Lo.pure
    | more => exact lo_bio2ci n b ci
    | fail => exact Lo.bind0 (lo_freeP ci) fun _ => Lo.pure

theorem lo_useDoc (x : Id) (b : Bio) : Lo0 (do use x; let json ← create; free x; return (json, b) : HM (Ptr × Bio)) :=
  Lo.bind0 lo_use fun _ => Lo.bind0 lo_create fun _ => Lo.bind0 lo_free fun _ => Lo.pure

theorem lo_asn1c2json (b : Bio) : Lo0 (asn1c2json b) := by
  refine Lo.bind0 lo_ask fun n => Lo.bind0 (lo_bio2ci n b none) fun r => ?_
  obtain ⟨ci, b⟩ := r
  cases ci with
  | none => exact Lo.pure
  | some x => exact lo_useDoc x b

theorem lo_bio2json (b : Bio) : Lo0 (bio2json b) := by
  refine Lo.bind0 lo_ask fun n => Lo.bind0 (lo_reads n b) fun b => Lo.bind0 lo_create fun x => ?_
  cases x with
  | none => exact Lo.pure
  | some x => exact lo_useDoc x b

theorem lo_rsync2bio' : Lo0 rsync2bio' := Lo.bind0 lo_askB fun _ => Lo.ite Lo.pure lo_create

theorem lo_filename2bio (w : Where) : Lo0 (filename2bio w) := by
  cases w with
  | local_ => exact lo_create
  | rsyncTmp =>
    refine Lo.bind0 lo_askB fun _ => Lo.ite Lo.pure (Lo.bind0 lo_new fun pb => Lo.bind0 lo_use fun _ => ?_)
    refine Lo.bind0 lo_askB fun _ => Lo.ite (Lo.bind0 lo_free fun _ => Lo.pure) (Lo.bind0 lo_use fun _ => ?_)
    exact Lo.bind0 lo_askB fun _ => Lo.ite (Lo.bind0 lo_free fun _ => Lo.pure) (Lo.bind0 lo_rsync2bio' fun _ => Lo.bind0 lo_free fun _ => Lo.pure)
  | rsyncCache =>
    refine Lo.bind0 lo_create fun u => ?_
    cases u with
    | none => exact Lo.pure
    | some u => exact Lo.bind0 lo_use fun _ => Lo.bind0 lo_rsync2bio' fun _ => Lo.bind0 lo_free fun _ => Lo.pure

theorem lo_parse (k : Kind) (b : Option Bio) : Lo0 (parse k b) := by
  cases b with
  | none =>
    cases k with
    | err => exact Lo.pure
    | _ => exact Lo.bind0 lo_crash fun _ => Lo.pure
  | some b =>
    cases k with
    | signed => exact Lo.bind0 (lo_asn1c2json b) fun _ => Lo.pure
    | certificate => exact Lo.bind0 (lo_bio2json b) fun _ => Lo.pure
    | crl => exact Lo.bind0 (lo_bio2json b) fun _ => Lo.pure
    | unknown => exact Lo.pure
    | err => exact Lo.pure

theorem lo_write (p : Ptr) : Lo0 (write p) := by
  cases p with
  | none => exact Lo.pure
  | some j => exact Lo.bind0 lo_use fun _ => Lo.bind0 lo_askB fun _ => Lo.bind0 lo_free fun _ => Lo.pure

theorem lo_printFile' (oom : Bool) (m : Id) (w : Where) (given : Option Kind) : LoN (printFile' oom m w given) (most oom) := by
  refine Lo.bind0 (lo_filename2bio w) fun x => ?_
  cases x with
  | none => exact Lo.pure
  | some b =>
    refine LoN.bindL (lo_guess oom m given b) fun r => ?_
    obtain ⟨k, b⟩ := r
    have main : k ≠ .unknown → Lo0 (do let r ← parse k b; freeBio m r.2; write r.1 : HM Bool) := fun _ =>
      Lo.bind0 (lo_parse k b) fun r => Lo.bind0 (lo_freeBio m r.2) fun _ => lo_write r.1
    cases k with
    | unknown => exact Lo.bind0 (lo_freeBio m b) fun _ => Lo.pure
    | _ => exact main (by simp)

theorem lo_printFile (oom : Bool) (w : Where) (given : Option Kind) : LoN (printFile oom w given) (most oom) := by
  have hs : Lo0 setup := by
    refine Lo.bind0 lo_askB fun _ => Lo.ite Lo.pure (Lo.bind0 lo_create fun m => ?_)
    cases m with
    | none => exact Lo.pure
    | some m => exact Lo.bind0 lo_use fun _ => Lo.bind0 lo_askB fun _ => Lo.ite (Lo.bind0 lo_free fun _ => Lo.pure) Lo.pure
  refine Lo.bind0 hs fun m => ?_
  cases m with
  | none => exact Lo.pure
  | some m => exact LoN.bindL (lo_printFile' oom m w given) fun r => Lo.bind0 lo_free fun _ => Lo.pure

end Verif.Pmem
