import Verif.Db.Model
import Mathlib.Data.List.Perm.Basic
import Mathlib.Data.List.Nodup
/-
Invariants of the shared database.
-/
namespace Verif.Db
variable {α : Type} {cap : Nat} {c : Content α}

/-- What the thread that validates owns. -/
def Writer.owns : Writer → List Obj
  | .built n => [.tab n]
  | .discard n => [.tab n]
  | .ready n d _ => .tab n :: (d.map Obj.dl).toList
  | .locked n d _ => .tab n :: (d.map Obj.dl).toList
  | .swapped d old => (d.map Obj.dl).toList ++ (old.map Obj.tab).toList
  | .added old => (old.map Obj.tab).toList
  | .unlocked old => (old.map Obj.tab).toList
  | _ => []

/-- What the state owns. -/
def St.owns (s : St α) : List Obj := (s.base.map Obj.tab).toList ++ s.hist.map Obj.dl

def Writer.inside : Writer → Bool
  | .locked _ _ _ => true
  | .swapped _ _ => true
  | .added _ => true
  | _ => false

/-- The old table that the thread remembers is the current one. -/
def Writer.oldIs (b : Option Nat) : Writer → Prop
  | .ready _ _ old => old = b
  | .locked _ _ old => old = b
  | _ => True

def Obj.id : Obj → Nat
  | .tab n => n
  | .dl n => n

/-- What a reader has sent, or collected, is from the current table and history. -/
def ReaderOk (c : Content α) (s : St α) : Reader α → Prop
  | .idle => True
  | .waiting _ => True
  | .roas sent => ∃ b, s.base = some b ∧ sent <+: c.roas b
  | .keys n sent => ∃ b, s.base = some b ∧ n ≤ (c.keys b).length ∧ sent = c.roas b ++ (c.keys b).take n
  | .collect n got => n + got.length ≤ s.hist.length ∧ got = (s.hist.drop (s.hist.length - (n + got.length))).take got.length
  | .rows left sent => ∃ k ≤ s.hist.length, sent ++ left = c.filtered (s.hist.drop (s.hist.length - k))
  | .leaving none => True
  | .leaving (some sent) => (∃ b, s.base = some b ∧ sent = c.roas b ++ c.keys b) ∨ ∃ k ≤ s.hist.length, sent = c.filtered (s.hist.drop (s.hist.length - k))

structure Inv (c : Content α) (s : St α) : Prop where
  good : s.bad = false
  fresh : ∀ o ∈ s.live, o.id < s.next
  nodup : s.live.Nodup
  owned : s.live.Perm (s.owns ++ s.writer.owns)
  inside : s.wlocked = s.writer.inside
  excl : s.wlocked = true → ∀ i, (s.readers i).holds = false
  old : s.writer.oldIs s.base
  readers : ∀ i, ReaderOk c s (s.readers i)

theorem ReaderOk.congr {s s' : St α} (h1 : s'.base = s.base) (h2 : s'.hist = s.hist) {r : Reader α} (h : ReaderOk c s r) : ReaderOk c s' r := by
  cases r with
  | leaving r => cases r <;> simpa [ReaderOk, h1, h2] using h
  | _ => simpa [ReaderOk, h1, h2] using h

theorem ReaderOk.quiet {s : St α} {r : Reader α} (h : r.holds = false) : ReaderOk c s r := by
  cases r <;> first | trivial | cases h

theorem Inv.init : Inv c (St.init : St α) where
  good := rfl
  fresh := by simp [St.init]
  nodup := List.nodup_nil
  owned := List.Perm.refl _
  inside := rfl
  excl := by simp [St.init]
  old := trivial
  readers _ := trivial

theorem Inv.live_base {s : St α} (h : Inv c s) {b : Nat} (hb : s.base = some b) : Obj.tab b ∈ s.live := by
  rw [h.owned.mem_iff]; simp [St.owns, hb]

theorem Inv.live_hist {s : St α} (h : Inv c s) {d : Nat} (hd : d ∈ s.hist) : Obj.dl d ∈ s.live := by
  rw [h.owned.mem_iff]; simp [St.owns, hd]

theorem Inv.live_own {s : St α} (h : Inv c s) {o : Obj} (ho : o ∈ s.writer.owns) : o ∈ s.live := by
  rw [h.owned.mem_iff]; simp [ho]

theorem use_eq {s : St α} {o : Obj} (h : o ∈ s.live) : s.use o = s := by
  cases s; simp_all [St.use]

theorem free_eq {s : St α} {o : Obj} (h : o ∈ s.live) : s.free o = { s with live := s.live.erase o } := by
  cases s; simp_all [St.free]

/-- A step that changes neither the table nor the history nor the readers. -/
theorem Inv.calm {s s' : St α} (h : Inv c s) (h1 : s'.base = s.base) (h2 : s'.hist = s.hist) (h3 : s'.readers = s.readers) (h4 : s'.bad = false) (h5 : ∀ o ∈ s'.live, o.id < s'.next)
    (h6 : s'.live.Nodup) (h7 : s'.live.Perm (s'.owns ++ s'.writer.owns)) (h8 : s'.wlocked = s'.writer.inside) (h9 : s'.wlocked = true → ∀ i, (s.readers i).holds = false)
    (h10 : s'.writer.oldIs s.base) : Inv c s' where
  good := h4
  fresh := h5
  nodup := h6
  owned := h7
  inside := h8
  excl := by rw [h3]; exact h9
  old := by rw [h1]; exact h10
  readers i := by rw [h3]; exact (h.readers i).congr h1 h2

theorem wstep_inv (hcap : 1 ≤ cap) {s s' : St α} (h : Inv c s) (hs : WStep cap s s') : Inv c s' := by
  have hin := h.inside
  have hold := h.old
  have hown := h.owned
  cases hs with
  | fail hw =>
    rw [hw] at hin hown
    exact h.calm rfl rfl rfl h.good h.fresh h.nodup hown hin h.excl trivial
  | noSlurm hw =>
    rw [hw] at hin hown
    refine h.calm rfl rfl rfl h.good ?_ ?_ ?_ hin h.excl trivial
    · intro o ho
      rcases List.mem_cons.1 ho with rfl | ho
      · exact Nat.lt_succ_self _
      · exact Nat.lt_succ_of_lt (h.fresh o ho)
    · exact List.nodup_cons.2 ⟨fun hm => Nat.lt_irrefl _ (h.fresh _ hm), h.nodup⟩
    · simp only [Writer.owns, List.append_nil] at hown
      exact (List.Perm.cons _ hown).trans (List.perm_append_comm (l₁ := [_]))
  | built hw =>
    rw [hw] at hin hown
    refine h.calm rfl rfl rfl h.good ?_ ?_ ?_ hin h.excl trivial
    · intro o ho
      rcases List.mem_cons.1 ho with rfl | ho
      · exact Nat.lt_succ_self _
      · exact Nat.lt_succ_of_lt (h.fresh o ho)
    · exact List.nodup_cons.2 ⟨fun hm => Nat.lt_irrefl _ (h.fresh _ hm), h.nodup⟩
    · simp only [Writer.owns, List.append_nil] at hown
      exact (List.Perm.cons _ hown).trans (List.perm_append_comm (l₁ := [_]))
  | first hw hb =>
    rw [hw] at hin hown
    exact h.calm rfl rfl rfl h.good h.fresh h.nodup hown hin h.excl hb.symm
  | same hw hb =>
    have l1 := h.live_base hb
    have l2 := h.live_own (o := .tab _) (by rw [hw]; exact List.mem_singleton.2 rfl)
    rw [use_eq l1, use_eq l2]
    rw [hw] at hin hown
    exact h.calm rfl rfl rfl h.good h.fresh h.nodup hown hin h.excl trivial
  | @differs n b hw hb =>
    have l1 := h.live_base hb
    have l2 := h.live_own (o := .tab n) (by rw [hw]; exact List.mem_singleton.2 rfl)
    rw [use_eq l1, use_eq l2]
    rw [hw] at hin hown
    refine h.calm rfl rfl rfl h.good ?_ ?_ ?_ hin h.excl hb.symm
    · intro o ho
      rcases List.mem_cons.1 ho with rfl | ho
      · exact Nat.lt_succ_self _
      · exact Nat.lt_succ_of_lt (h.fresh o ho)
    · exact List.nodup_cons.2 ⟨fun hm => Nat.lt_irrefl _ (h.fresh _ hm), h.nodup⟩
    · refine (List.Perm.cons _ hown).trans ?_
      show (Obj.dl s.next :: (s.owns ++ [Obj.tab n])).Perm (s.owns ++ [Obj.tab n, Obj.dl s.next])
      rw [show s.owns ++ [Obj.tab n, Obj.dl s.next] = (s.owns ++ [Obj.tab n]) ++ [Obj.dl s.next] by simp]
      exact List.perm_append_comm (l₁ := [_])
  | @discard n hw =>
    have l := h.live_own (o := .tab n) (by rw [hw]; exact List.mem_singleton.2 rfl)
    rw [free_eq l]
    rw [hw] at hin hown
    refine h.calm rfl rfl rfl h.good (fun o ho => h.fresh o (List.mem_of_mem_erase ho)) (h.nodup.erase _) ?_ hin h.excl trivial
    have := hown.erase (.tab n)
    refine this.trans ?_
    show ((s.owns ++ [Obj.tab n]).erase (.tab n)).Perm (s.owns ++ [])
    rw [List.append_nil]
    exact ((List.perm_append_comm (l₂ := [Obj.tab n])).erase _).trans (by rw [List.singleton_append, List.erase_cons_head])
  | lock hw hl hr =>
    rw [hw] at hin hown hold
    exact h.calm rfl rfl rfl h.good h.fresh h.nodup hown rfl (fun _ => hr) hold
  | @swap n d old hw =>
    rw [hw] at hin hown hold
    have hex := h.excl hin
    refine ⟨h.good, h.fresh, h.nodup, hown.trans ?_, hin, h.excl, trivial, fun i => ReaderOk.quiet (hex i)⟩
    have ho : old = s.base := hold
    subst ho
    simp only [St.owns, Writer.owns, Option.map_some, Option.toList_some]
    cases d with
    | none =>
      simp only [Option.map_none, Option.toList_none, List.nil_append]
      generalize (s.base.map Obj.tab).toList = B
      generalize s.hist.map Obj.dl = H
      refine List.perm_append_comm.trans ?_
      rw [List.append_assoc]
      simp only [List.singleton_append]
      exact List.Perm.cons _ List.perm_append_comm
    | some d =>
      simp only [Option.map_some, Option.toList_some]
      generalize (s.base.map Obj.tab).toList = B
      generalize s.hist.map Obj.dl = H
      rw [List.append_assoc, List.append_assoc]
      simp only [List.singleton_append]
      refine (List.perm_append_comm (l₁ := B)).trans ?_
      rw [List.append_assoc]
      refine (List.perm_append_comm (l₁ := H)).trans ?_
      simp only [List.cons_append, List.nil_append]
      refine List.Perm.cons _ ?_
      rw [show Obj.dl d :: (B ++ H) = (Obj.dl d :: B) ++ H from rfl]
      exact List.perm_append_comm
  | addNone hw =>
    rw [hw] at hin hown
    exact h.calm rfl rfl rfl h.good h.fresh h.nodup hown hin h.excl trivial
  | @add d old hw =>
    rw [hw] at hin hown
    have hex := h.excl hin
    have hown' : s.live.Perm ((s.base.map Obj.tab).toList ++ s.hist.map Obj.dl ++ (Obj.dl d :: (old.map Obj.tab).toList)) := hown
    by_cases hl : s.hist.length < cap
    · simp only [St.addDelta, if_pos hl]
      refine ⟨h.good, h.fresh, h.nodup, hown'.trans ?_, hin, h.excl, trivial, fun i => ReaderOk.quiet (hex i)⟩
      simp [St.owns, Writer.owns]
    · cases hh : s.hist with
      | nil => rw [hh] at hl; simp at hl; omega
      | cons x l =>
        have lx := h.live_hist (d := x) (by rw [hh]; exact List.mem_cons_self)
        simp only [St.addDelta, if_neg hl]
        simp only [hh]
        rw [free_eq lx]
        refine ⟨h.good, fun o ho => h.fresh o (List.mem_of_mem_erase ho), h.nodup.erase _, ?_, hin, h.excl, trivial, fun i => ReaderOk.quiet (hex i)⟩
        rw [hh] at hown'
        have h1 := hown'.erase (.dl x)
        refine h1.trans ?_
        simp only [St.owns, Writer.owns, List.map_append, List.map_cons, List.map_nil]
        generalize (s.base.map Obj.tab).toList = B
        generalize (old.map Obj.tab).toList = O
        generalize l.map Obj.dl = H
        have : (B ++ Obj.dl x :: H ++ Obj.dl d :: O).Perm (Obj.dl x :: (B ++ H ++ Obj.dl d :: O)) := by
          rw [List.append_assoc, List.cons_append, List.append_assoc]
          exact List.perm_middle
        refine (this.erase _).trans ?_
        rw [List.erase_cons_head]
        simp
  | unlock hw =>
    rw [hw] at hin hown
    exact h.calm rfl rfl rfl h.good h.fresh h.nodup hown rfl (by simp) trivial
  | @free old hw =>
    cases old with
    | none =>
      rw [hw] at hin hown
      exact h.calm rfl rfl rfl h.good h.fresh h.nodup hown hin h.excl trivial
    | some n =>
      have l := h.live_own (o := .tab n) (by rw [hw]; exact List.mem_singleton.2 rfl)
      simp only [Option.map_some, St.freeOpt]
      rw [free_eq l]
      rw [hw] at hin hown
      refine h.calm rfl rfl rfl h.good (fun o ho => h.fresh o (List.mem_of_mem_erase ho)) (h.nodup.erase _) ?_ hin h.excl trivial
      have := hown.erase (.tab n)
      refine this.trans ?_
      show ((s.owns ++ [Obj.tab n]).erase (.tab n)).Perm (s.owns ++ [])
      rw [List.append_nil]
      exact ((List.perm_append_comm (l₂ := [Obj.tab n])).erase _).trans (by rw [List.singleton_append, List.erase_cons_head])
  | reportNone hw =>
    rw [hw] at hin hown
    exact h.calm rfl rfl rfl h.good h.fresh h.nodup hown hin h.excl trivial
  | report hw _ hb =>
    rw [use_eq (h.live_base hb)]
    rw [hw] at hin hown
    exact h.calm rfl rfl rfl h.good h.fresh h.nodup hown hin h.excl trivial

theorem Inv.set {s : St α} (h : Inv c s) {i : Nat} {r : Reader α} (h1 : ReaderOk c s r) (h2 : s.wlocked = true → r.holds = false) : Inv c (s.set i r) where
  good := h.good
  fresh := h.fresh
  nodup := h.nodup
  owned := h.owned
  inside := h.inside
  excl hl j := by
    simp only [St.set]
    split
    · exact h2 hl
    · exact h.excl hl j
  old := h.old
  readers j := by
    simp only [St.set]
    split
    · exact ReaderOk.congr rfl rfl h1
    · exact ReaderOk.congr rfl rfl (h.readers j)

/-- A reader that holds the lock. -/
theorem Inv.unlocked {s : St α} (h : Inv c s) {i : Nat} (hi : (s.readers i).holds = true) : s.wlocked = false := by
  cases hw : s.wlocked with
  | false => rfl
  | true => rw [h.excl hw i] at hi; cases hi

theorem rstep_inv {s s' : St α} {i : Nat} (h : Inv c s) (hs : RStep c i s s') : Inv c s' := by
  cases hs with
  | lockNone hr hl hb => exact h.set trivial (by rw [hl]; simp)
  | lockBase hr hl hb => exact h.set ⟨_, hb, List.nil_prefix⟩ (by rw [hl]; simp)
  | lockOld hr hl hb hn => exact h.set trivial (by rw [hl]; simp)
  | lockSince hr hl hb hn => exact h.set ⟨by simpa using hn, by simp⟩ (by rw [hl]; simp)
  | @visit n got d hr hd =>
    have hr' := h.readers i
    rw [hr] at hr'
    obtain ⟨h1, h2⟩ := hr'
    have hm : d ∈ s.hist := List.mem_of_getElem? hd
    rw [use_eq (h.live_hist hm)]
    refine h.set ⟨by simp; omega, ?_⟩ (by rw [h.unlocked (i := i) (by rw [hr]; rfl)]; simp)
    have e : s.hist.length - (n + (got ++ [d]).length) = s.hist.length - (n + 1 + got.length) := by simp; omega
    rw [e, List.length_append, List.length_singleton, List.take_add_one, ← h2, List.getElem?_drop]
    have e2 : s.hist.length - (n + 1 + got.length) + got.length = s.hist.length - (n + 1) := by omega
    rw [e2, hd]
    rfl
  | @filtered got hr =>
    have hr' := h.readers i
    rw [hr] at hr'
    obtain ⟨h1, h2⟩ := hr'
    refine h.set ⟨got.length, by omega, ?_⟩ (by rw [h.unlocked (i := i) (by rw [hr]; rfl)]; simp)
    rw [Nat.zero_add] at h2
    rw [List.nil_append, h2]
    congr 1
    simp only [List.length_take, List.length_drop]
    rw [List.take_of_length_le (by simp; omega)]
    congr 1
    omega
  | rowsEnd hr =>
    have hr' := h.readers i
    rw [hr] at hr'
    obtain ⟨k, h1, h2⟩ := hr'
    exact h.set (.inr ⟨k, h1, by simpa using h2⟩) (by rw [h.unlocked (i := i) (by rw [hr]; rfl)]; simp)
  | @roasEnd b sent hr hb hl =>
    have hr' := h.readers i
    rw [hr] at hr'
    obtain ⟨b', e, hp⟩ := hr'
    rw [hb] at e
    cases e
    rw [use_eq (h.live_base hb)]
    refine h.set ⟨b, hb, Nat.zero_le _, ?_⟩ (by rw [h.unlocked (i := i) (by rw [hr]; rfl)]; simp)
    rw [List.take_zero, List.append_nil]
    exact hp.eq_of_length_le hl
  | @keysEnd b n sent hr hb hl =>
    have hr' := h.readers i
    rw [hr] at hr'
    obtain ⟨b', e, h1, h2⟩ := hr'
    rw [hb] at e
    cases e
    rw [use_eq (h.live_base hb)]
    refine h.set (.inl ⟨b, hb, ?_⟩) (by rw [h.unlocked (i := i) (by rw [hr]; rfl)]; simp)
    rw [h2, List.take_of_length_le hl]
  | unlock hr => exact h.set trivial (fun _ => rfl)

theorem sstep_inv {s s' : St α} {i : Nat} (h : Inv c s) (hs : SStep c i s s') : Inv c s' := by
  have hr' := h.readers i
  cases hs with
  | @roa b sent x hr hb hx =>
    rw [hr] at hr'
    obtain ⟨b', e, hp⟩ := hr'
    rw [hb] at e
    cases e
    rw [use_eq (h.live_base hb)]
    refine h.set ⟨b, hb, ?_⟩ (by rw [h.unlocked (i := i) (by rw [hr]; rfl)]; simp)
    obtain ⟨rest, e⟩ := hp
    rw [← e] at hx ⊢
    rw [List.getElem?_append_right (Nat.le_refl _), Nat.sub_self] at hx
    cases rest with
    | nil => cases hx
    | cons y rest =>
      cases hx
      exact ⟨rest, by simp⟩
  | @key b n sent x hr hb hx =>
    rw [hr] at hr'
    obtain ⟨b', e, h1, h2⟩ := hr'
    rw [hb] at e
    cases e
    rw [use_eq (h.live_base hb)]
    have hn : n < (c.keys b).length := (List.getElem?_eq_some_iff.1 hx).1
    refine h.set ⟨b, hb, hn, ?_⟩ (by rw [h.unlocked (i := i) (by rw [hr]; rfl)]; simp)
    rw [h2, List.take_add_one, hx, List.append_assoc]
    rfl
  | row hr =>
    rw [hr] at hr'
    obtain ⟨k, h1, h2⟩ := hr'
    exact h.set ⟨k, h1, by rw [← h2]; simp⟩ (by rw [h.unlocked (i := i) (by rw [hr]; rfl)]; simp)
  | roaFails hr => exact h.set trivial (by rw [h.unlocked (i := i) (by rw [hr]; rfl)]; simp)
  | keyFails hr => exact h.set trivial (by rw [h.unlocked (i := i) (by rw [hr]; rfl)]; simp)
  | rowFails hr => exact h.set trivial (by rw [h.unlocked (i := i) (by rw [hr]; rfl)]; simp)

theorem step_inv (hcap : 1 ≤ cap) {s s' : St α} (h : Inv c s) (hs : Step cap c s s') : Inv c s' := by
  cases hs with
  | writer hs => exact wstep_inv hcap h hs
  | reader hs => exact rstep_inv h hs
  | send hs => exact sstep_inv h hs
  | request hr => exact h.set trivial (fun _ => rfl)

theorem reach_inv (hcap : 1 ≤ cap) {s : St α} (h : Reach cap c s) : Inv c s := by
  induction h with
  | init => exact .init
  | step _ hs ih => exact step_inv hcap ih hs

end Verif.Db
