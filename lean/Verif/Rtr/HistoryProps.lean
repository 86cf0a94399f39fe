/-
C06, C07 and C08: incremental synchronization, the delta window and the serial.
-/
import Verif.Rtr.HistoryLemmas

namespace Verif.Rtr

/-- The answer to a serial query in terms of the forward distance from the queried to the current serial. -/
theorem deltaSince_distance {st : State} {cap : Nat} {snaps : List Table} (h : st.Inv cap snaps)
    (hne : snaps ≠ []) (s : Serial) :
    let d := (st.serial - s).toNat
    let n := min (snaps.length - 1) cap
    if d ≤ n then ∃ l ds, st.deltas.Inv ds ∧ Connects snaps ds ∧ st.deltaSince s = .send l st.serial ∧
        l = (ds.drop (ds.length - d)).foldl deltasForeach ⟨[], []⟩
    else if n = 0 ∧ d = 2 ^ 31 then st.deltaSince s = .send ⟨[], []⟩ st.serial
    else st.deltaSince s = .cacheReset := by
  obtain ⟨hb, hs, hw, hc, hcap2, ds, hd, hcon⟩ := h
  intro d n
  have hbase : ∃ t, st.base = some t := by
    rw [hb, List.getLast?_eq_some_getLast hne]; exact ⟨_, rfl⟩
  obtain ⟨t, ht⟩ := hbase
  have hlen : st.deltas.len.toNat = n := by rw [hd.lenEq, hcon.1, hc]
  have hn31 : n < 2 ^ 31 := by omega
  have hd32 : d < 2 ^ 32 := (st.serial - s).isLt
  have hsb := s.isLt
  have hsa := st.serial.isLt
  have hdd : d = (2 ^ 32 - s.toNat + st.serial.toNat) % 2 ^ 32 := BitVec.toNat_sub _ _
  have hz : d = 0 ↔ s = st.serial := by
    rw [← BitVec.toNat_inj]; omega
  have e1 : (st.serial - st.deltas.len - s).toNat = (d + 2 ^ 32 - n) % 2 ^ 32 := by
    rw [BitVec.toNat_sub, BitVec.toNat_sub, hlen, hdd]
    omega
  have e2 : (s - st.serial).toNat = (2 ^ 32 - d) % 2 ^ 32 := by
    rw [BitVec.toNat_sub, hdd]
    omega
  have L1 := serialLt_toNat s (st.serial - st.deltas.len)
  have L2 := serialLt_toNat st.serial s
  rw [e1] at L1
  rw [e2] at L2
  have hfs := hd.foreachSince (by omega) (st.serial - s) deltasForeach (⟨[], []⟩ : Lists)
  rw [hcon.1, hc] at hfs
  by_cases hdn : d ≤ n
  · rw [if_pos hdn]
    refine ⟨_, ds, hd, hcon, ?_, rfl⟩
    unfold State.deltaSince
    simp only [ht]
    by_cases hsame : s = st.serial
    · have hd0 : d = 0 := hz.2 hsame
      rw [if_pos hsame, hd0]
      have : ds.drop (ds.length - 0) = [] := by simp
      rw [this, hsame]
      rfl
    · have hd0 : d ≠ 0 := fun hh => hsame (hz.1 hh)
      rw [if_neg hsame, if_neg (by rw [L1]; omega), if_neg (by rw [L2]; omega), hfs,
        if_pos (show d ≤ min (snaps.length - 1) cap from hdn)]
      rw [show ds.length = snaps.length - 1 from hcon.1]
  · rw [if_neg hdn]
    have hsame : s ≠ st.serial := by
      intro hh; apply hdn; rw [hz.2 hh]; exact Nat.zero_le _
    unfold State.deltaSince
    simp only [ht]
    rw [if_neg hsame]
    by_cases hx : n = 0 ∧ d = 2 ^ 31
    · rw [if_pos hx, if_neg (by rw [L1]; omega), if_neg (by rw [L2]; omega), hfs,
        if_neg (show ¬ d ≤ min (snaps.length - 1) cap from hdn)]
    · rw [if_neg hx]
      by_cases hq : serialLt s (st.serial - st.deltas.len) = true
      · rw [if_pos hq]
      · rw [if_neg hq, if_pos]
        rw [L2]
        rw [L1] at hq
        omega

theorem sub_sub_cancel' (a b : Serial) : a - (a - b) = b := by
  apply BitVec.eq_of_toNat_eq
  have := a.isLt
  have := b.isLt
  rw [BitVec.toNat_sub, BitVec.toNat_sub]
  omega

/-- The answer to a router at snapshot `j` is the net difference to the newest snapshot. -/
theorem sync_net (cap : Nat) (h1 : 1 ≤ cap) (h2 : cap < 2 ^ 31) (now : BitVec 64)
    (rs : List (Option Table)) (hrs : ResultsWF rs) (j : Nat) (old : Table)
    (hj : (snapshots rs)[j]? = some old) (hdist : (snapshots rs).length - 1 - j < 2 ^ 32) :
    ∃ st, (State.init cap now).updates rs = some st ∧ st.Inv cap (snapshots rs) ∧
    ∃ new, (snapshots rs).getLast? = some new ∧
      match st.deltaSince (BitVec.ofNat 32 (j + 1)) with
      | .cacheReset => cap < (snapshots rs).length - 1 - j
      | .send l to_ =>
          Net old.vrpSet new.vrpSet l.vrps ∧ Net old.keySet new.keySet l.rks ∧
          to_ = BitVec.ofNat 32 (snapshots rs).length
      | .noData => False
      | .ub => False := by
  obtain ⟨st, hst, hinv⟩ := (State.inv_init h1 h2 now).updates hrs
  change st.Inv cap (snapshots rs) at hinv
  generalize snapshots rs = snaps at *
  refine ⟨st, hst, hinv, ?_⟩
  have hjlt : j < snaps.length := by
    by_contra hh
    rw [List.getElem?_eq_none (by omega)] at hj
    cases hj
  have hold : snaps[j] = old := by
    rw [List.getElem?_eq_getElem hjlt, Option.some.injEq] at hj; exact hj
  have hne : snaps ≠ [] := by rintro rfl; simp at hjlt
  refine ⟨snaps.getLast hne, List.getLast?_eq_some_getLast hne, ?_⟩
  have hd : (st.serial - BitVec.ofNat 32 (j + 1)).toNat = snaps.length - 1 - j := by
    rw [hinv.serial, BitVec.toNat_sub, BitVec.toNat_ofNat, BitVec.toNat_ofNat]
    omega
  have key := deltaSince_distance hinv hne (BitVec.ofNat 32 (j + 1))
  simp only [hd] at key
  by_cases hle : snaps.length - 1 - j ≤ min (snaps.length - 1) cap
  · rw [if_pos hle] at key
    obtain ⟨l, ds, _, hcon, hsend, hl⟩ := key
    rw [hsend]
    have hdl : ds.length - (snaps.length - 1 - j) = j := by have := hcon.1; omega
    rw [hdl] at hl
    have hw := hinv.wf
    have := fold_deltas_net (snaps[j]).vrpSet (snaps[j]).keySet snaps ds hcon hw
      (snaps.length - 1 - j) j ⟨[], []⟩ (by omega) (Net.init _) (Net.init _) (by simp)
    rw [← hl] at this
    have hlast : snaps[j + (snaps.length - 1 - j)]'(by omega) = snaps.getLast hne := by
      rw [List.getLast_eq_getElem]; congr 1; omega
    rw [hlast, hold] at this
    exact ⟨this.1, this.2, hinv.serial⟩
  · rw [if_neg hle] at key
    rw [if_neg (by omega)] at key
    rw [key]
    simp only
    omega

/-- C06. Take any sequence of validation cycles (with failures anywhere), any lifetime `1 ≤ cap < 2^31`, and a
router which holds snapshot `j` of the session and asks for what changed since its serial `j + 1`, fewer than
`2^32` publications ago. The server has had no undefined behaviour, and either tells the router to reset, or
sends announcements and withdrawals which a strict router can apply one by one and which leave it with exactly
the newest snapshot, whose serial is the one announced. If the serial is at most `cap` publications old, the
answer is never a reset. -/
theorem C06_incremental_sync (cap : Nat) (h1 : 1 ≤ cap) (h2 : cap < 2 ^ 31) (now : BitVec 64)
    (rs : List (Option Table)) (hrs : ResultsWF rs) (j : Nat) (old : Table)
    (hj : (snapshots rs)[j]? = some old) (hdist : (snapshots rs).length - 1 - j < 2 ^ 32) :
    ∃ st, (State.init cap now).updates rs = some st ∧
    ∃ new, (snapshots rs).getLast? = some new ∧
      match st.deltaSince (BitVec.ofNat 32 (j + 1)) with
      | .cacheReset => cap < (snapshots rs).length - 1 - j
      | .send l to_ =>
          Router.run old.vrpSet l.vrps = some new.vrpSet ∧
          Router.run old.keySet l.rks = some new.keySet ∧
          to_ = BitVec.ofNat 32 (snapshots rs).length
      | .noData => False
      | .ub => False := by
  obtain ⟨st, hst, _, new, hnew, h⟩ := sync_net cap h1 h2 now rs hrs j old hj hdist
  refine ⟨st, hst, new, hnew, ?_⟩
  generalize st.deltaSince (BitVec.ofNat 32 (j + 1)) = a at h ⊢
  cases a with
  | ub => exact h
  | noData => exact h
  | cacheReset => exact h
  | send l to_ => exact ⟨h.1.run, h.2.1.run, h.2.2⟩

/-- Two VRPs. -/
def exV1 : Vrp := ⟨1, .v4, 0x0A000000, 8, 24⟩
/-- See `exV1`. -/
def exV2 : Vrp := ⟨2, .v6, 0x20010000000000000000000000000000, 16, 16⟩

/-- A history with a failure, a repeated result and three publications: a router at serial 1 with lifetime 5 gets
the withdrawal of the first VRP and the announcement of the second, and serial 3. -/
example :
    let rs : List (Option Table) := [none, some ⟨[exV1], []⟩, some ⟨[exV1], []⟩, some ⟨[exV1, exV2], []⟩,
      none, some ⟨[exV2], []⟩]
    (snapshots rs).length = 3 ∧ ResultsWF rs ∧
    ((State.init 5 0).updates rs).map (fun st => match st.deltaSince 1 with
      | .send l to_ => (l.vrps, to_) | _ => ([], 0)) =
      some ([⟨.withdrawal, exV1⟩, ⟨.announcement, exV2⟩], 3) := by
  refine ⟨by decide, ?_, by decide⟩
  intro t ht
  simp only [List.mem_cons, Option.some.injEq, List.not_mem_nil, or_false, reduceCtorEq, false_or] at ht
  rcases ht with rfl | rfl | rfl | rfl <;> refine ⟨by decide, by decide, ?_⟩ <;>
    intro v hv <;> simp [exV1, exV2, Vrp.WF] at hv ⊢ <;> (try rcases hv with rfl | rfl) <;> (try subst hv) <;> simp

/-- C07, the part that holds: once at least one delta is stored (`2 ≤ publications`), every serial which is
neither the current one nor one of the stored predecessors gets a Cache Reset, and every other serial gets data. -/
theorem C07_window_partial (cap : Nat) (h1 : 1 ≤ cap) (h2 : cap < 2 ^ 31) (now : BitVec 64)
    (rs : List (Option Table)) (hrs : ResultsWF rs) (hpub : 2 ≤ (snapshots rs).length) :
    ∃ st, (State.init cap now).updates rs = some st ∧
      ∀ s : Serial,
        ((∀ k : Nat, k ≤ min ((snapshots rs).length - 1) cap → s ≠ st.serial - BitVec.ofNat 32 k) →
          st.deltaSince s = .cacheReset) ∧
        ((∃ k : Nat, k ≤ min ((snapshots rs).length - 1) cap ∧ s = st.serial - BitVec.ofNat 32 k) →
          ∃ l, st.deltaSince s = .send l st.serial) := by
  obtain ⟨st, hst, hinv⟩ := (State.inv_init h1 h2 now).updates hrs
  change st.Inv cap (snapshots rs) at hinv
  generalize snapshots rs = snaps at *
  refine ⟨st, hst, fun s => ?_⟩
  have hne : snaps ≠ [] := by rintro rfl; simp at hpub
  have key := deltaSince_distance hinv hne s
  have hself : s = st.serial - BitVec.ofNat 32 (st.serial - s).toNat := by
    rw [BitVec.ofNat_toNat, BitVec.setWidth_eq]
    rw [sub_sub_cancel']
  constructor
  · intro h
    by_cases hle : (st.serial - s).toNat ≤ min (snaps.length - 1) cap
    · exact absurd hself (h _ hle)
    · simp only [if_neg hle] at key
      rwa [if_neg (by omega)] at key
  · rintro ⟨k, hk, rfl⟩
    have : (st.serial - (st.serial - BitVec.ofNat 32 k)).toNat = k := by
      rw [sub_sub_cancel', BitVec.toNat_ofNat]; omega
    rw [this] at key
    simp only [if_pos hk] at key
    obtain ⟨l, _, _, _, h, _⟩ := key
    exact ⟨l, h⟩

example : 2 ≤ (snapshots [some ⟨[exV1], []⟩, some ⟨[exV2], []⟩]).length := by decide

/-- C07 is false: after the first validation cycle (serial 1, no delta stored), a router which asks for the
serial at distance `2^31` - never issued in this session - is told that it is up to date. -/
theorem C07_wrong_serial_accepted :
    ∃ st, (State.init 5 0).updates [some ⟨[exV1], []⟩] = some st ∧ st.serial = 1 ∧
      st.deltaSince (1 - 0x80000000#32) = .send ⟨[], []⟩ 1 ∧ (1 - 0x80000000#32 : Serial) ≠ 1 := by
  refine ⟨_, rfl, ?_⟩
  decide

/-- C08. After any sequence of cycles, the serial is the number of publications (mod 2^32), the served data is
the last publication, and one more cycle: fails or publishes nothing - then the whole state (serial, data,
history) is unchanged and no change is reported - or publishes the new data, advances the serial by one and
reports a change. `publish` says when: only a successful result that differs, as sets, from the served data. -/
theorem C08_serial_iff_change (cap : Nat) (h1 : 1 ≤ cap) (h2 : cap < 2 ^ 31) (now : BitVec 64)
    (rs : List (Option Table)) (hrs : ResultsWF rs) :
    ∃ st, (State.init cap now).updates rs = some st ∧
      st.serial = BitVec.ofNat 32 (snapshots rs).length ∧
      st.base = (snapshots rs).getLast? ∧
      (st.lastSerial = none ↔ snapshots rs = []) ∧
      st.update none = (st, .failed false) ∧
      (∀ t, t.WF → (∃ old, st.base = some old ∧ old.vrpSet = t.vrpSet ∧ old.keySet = t.keySet) →
        st.update (some t) = (st, .ok false)) ∧
      (∀ t, t.WF → ¬ (∃ old, st.base = some old ∧ old.vrpSet = t.vrpSet ∧ old.keySet = t.keySet) →
        (st.update (some t)).2 = .ok true ∧ (st.update (some t)).1.base = some t ∧
        (st.update (some t)).1.serial = st.serial + 1) := by
  obtain ⟨st, hst, hinv⟩ := (State.inv_init h1 h2 now).updates hrs
  change st.Inv cap (snapshots rs) at hinv
  generalize snapshots rs = snaps at *
  refine ⟨st, hst, hinv.serial, hinv.base, ?_, rfl, ?_, ?_⟩
  · unfold State.lastSerial
    rw [hinv.base]
    cases hl : snaps.getLast? with
    | none => simp [List.getLast?_eq_none_iff.1 hl]
    | some x => simp; rintro rfl; simp at hl
  · rintro t ht ⟨old, ho, hs⟩
    obtain ⟨_, h4, h5⟩ := hinv.update (r := some t) (fun t' h' => by cases h'; exact ht)
    have hp : publish snaps (some t) = snaps := by
      rw [hinv.base] at ho
      simp [publish, ho, Table.SameData, hs]
    rw [hp] at h4
    rw [Prod.ext_iff]
    exact ⟨h5 hp, by simpa using h4⟩
  · intro t ht hno
    obtain ⟨h3, h4, _⟩ := hinv.update (r := some t) (fun t' h' => by cases h'; exact ht)
    have hp : publish snaps (some t) = snaps ++ [t] := by
      cases hl : snaps.getLast? with
      | none => simp [publish, List.getLast?_eq_none_iff.1 hl]
      | some x =>
        have : ¬ x.SameData t := fun hh => hno ⟨x, by rw [hinv.base, hl], hh⟩
        simp [publish, hl, this]
    rw [hp] at h3 h4
    refine ⟨by simpa using h4, ?_, ?_⟩
    · rw [h3.base]; simp
    · rw [h3.serial, hinv.serial, List.length_append, BitVec.ofNat_add]; rfl

/-- Both kinds of successful cycle occur. -/
example :
    ((State.init 5 0).updates [some ⟨[exV1, exV2], []⟩]).map (fun st =>
      ((st.update (some ⟨[exV2, exV1], []⟩)).2, (st.update (some ⟨[exV2], []⟩)).2)) =
    some (.ok false, .ok true) := by decide

end Verif.Rtr
