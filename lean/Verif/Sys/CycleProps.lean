import Verif.Sys.CycleHist
/-
C168 (from the files of the trust anchors to the routers).
-/
namespace Verif.Sys
open Verif.Tree Verif.Res
open Verif.Rtr (Table Timers NoFailure State handleResetQuery handleSerialQuery Sock SendCall emptyClient synced snapshots)
open Verif.Cache (Url Cfg Works)
variable {ρ U X C S : Type}

/-- **C168, cycles.** Any number of cycles run without harm. A cycle has no result exactly if there are no TALs, or one of them does not
validate, or the SLURM files cannot be read; otherwise its result is what it has to publish. -/
theorem C168_cycles {cfg : Cfg} {env : Slurm.Env} (he : env.Ok) {content : List Byte → Option Slurm.Json} {tals : Cycle ρ U X C S → List Tal.Str}
    (cs : List (Cycle ρ U X C S)) (hs : ∀ c ∈ cs, Sane cfg env content (tals c) c) :
    ∃ k rs, runCycles cfg env none cs = some (k, rs) ∧ rs.length = cs.length ∧
      ∀ pre c post, cs = pre ++ c :: post → ∃ r, rs[pre.length]? = some r ∧ Result cfg env tals c (slurms cfg tals (pre ++ [c])) r := by
  obtain ⟨k, rs, h1, h2, h3⟩ := runCycles_spec he cs [] [] hs (fun i hi => by cases hi) rfl
  exact ⟨k, rs, h1, h2, fun pre c post e => h3 pre c post e⟩

theorem results_ok {cfg : Cfg} {env : Slurm.Env} (he : env.Ok) {content : List Byte → Option Slurm.Json} {tals : Cycle ρ U X C S → List Tal.Str}
    {cs : List (Cycle ρ U X C S)} (hs : ∀ c ∈ cs, Sane cfg env content (tals c) c) {k : Option Slurm.Kept} {rs : List (Option Table)}
    (hr : runCycles cfg env none cs = some (k, rs)) : Rtr.ResultsWF rs ∧ Rtr.ResultsSized rs ∧
    ∀ c hist, LastGood cfg tals cs c hist → ∃ pre t post, rs = pre ++ some t :: post ∧ (∀ r ∈ post, r = none) ∧
      ∀ x, Slurm.InForce env hist x → Published c (tals c) x t := by
  obtain ⟨k', rs', h1, h2, h3⟩ := C168_cycles he cs hs
  rw [hr] at h1
  cases h1
  have hok : ∀ t, some t ∈ rs → t.WF ∧ t.KeysSized := by
    intro t ht
    obtain ⟨i, hi, e⟩ := List.getElem_of_mem ht
    have hi' : i < cs.length := by omega
    obtain ⟨r, g1, g2, g3⟩ := h3 (cs.take i) cs[i] (cs.drop (i + 1)) (by simp)
    rw [List.length_take, Nat.min_eq_left (by omega), List.getElem?_eq_getElem hi, e] at g1
    cases g1
    by_cases hg : Good cfg (tals cs[i]) cs[i]
    · obtain ⟨t', e', w1, w2, _⟩ := g3 hg
      cases e'
      exact ⟨w1, w2⟩
    · cases g2 hg
  refine ⟨fun t ht => (hok t ht).1, fun t ht => (hok t ht).2, ?_⟩
  rintro c hist ⟨pre, post, rfl, hg, hp, rfl⟩
  obtain ⟨r, g1, _, g3⟩ := h3 pre c post rfl
  obtain ⟨t, rfl, _, _, ht⟩ := g3 hg
  obtain ⟨hi, e⟩ := List.getElem?_eq_some_iff.1 g1
  refine ⟨rs.take pre.length, t, rs.drop (pre.length + 1), ?_, ?_, ht⟩
  · rw [← e]; simp
  · intro r hr
    obtain ⟨j, hj, e⟩ := List.getElem_of_mem hr
    rw [List.length_drop] at hj
    rw [List.getElem_drop] at e
    have hj' : j < post.length := by simp at h2; omega
    obtain ⟨r', g1, g2, _⟩ := h3 (pre ++ c :: post.take j) post[j] (post.drop (j + 1)) (by simp)
    rw [show (pre ++ c :: post.take j).length = pre.length + 1 + j by simp; omega, List.getElem?_eq_getElem (by omega), e] at g1
    cases g1
    exact g2 (hp _ (List.getElem_mem _))

/-- **C168, reset.** After any cycles, of which at least one is good, a router that asks for all the data gets what the last good cycle
had to publish. (If it speaks version 0 or 1, and no transmission fails, and no update lands in the middle.) -/
theorem C168_reset {cfg : Cfg} {env : Slurm.Env} (he : env.Ok) {content : List Byte → Option Slurm.Json} {tals : Cycle ρ U X C S → List Tal.Str}
    (cs : List (Cycle ρ U X C S)) (hs : ∀ c ∈ cs, Sane cfg env content (tals c) c) {c : Cycle ρ U X C S} {hist : List Slurm.CycleIn}
    (hl : LastGood cfg tals cs c hist) (x : Option Slurm.Lists) (hx : Slurm.InForce env hist x)
    (o : Nat → Int) (hn : NoFailure o) (cap : Nat) (h1 : 1 ≤ cap) (h2 : cap < 2 ^ 31) (now : BitVec 64) (tm : Timers)
    (v : BitVec 8) (hv : v = 0 ∨ v = 1) :
    ∃ k rs st t n, runCycles cfg env none cs = some (k, rs) ∧ (State.init cap now).updates rs = some st ∧ Published c (tals c) x t ∧
      let sent := (handleResetQuery o st st tm v Sock.new).1.sent
      (Rtr.Rfc.decodeStream sent.length (sent.flatMap SendCall.bytes)).bind emptyClient.run = some (synced v t n) := by
  obtain ⟨k, rs, hr, _⟩ := C168_cycles he cs hs
  obtain ⟨w1, w2, w3⟩ := results_ok he hs hr
  obtain ⟨pre, t, post, rfl, hp, ht⟩ := w3 c hist hl
  obtain ⟨cur, hc1, hc2⟩ := snapshots_last pre post t hp
  obtain ⟨st, e1, cur', e2, e3⟩ := Rtr.C66_reset_end_to_end_partial o hn cap h1 h2 now _ w1 w2
    (by intro h; rw [h] at hc1; cases hc1) tm v hv
  rw [hc1] at e2
  cases e2
  exact ⟨k, _, st, t, _, hr, e1, ht x hx, by rw [← synced_same hc2]; exact e3⟩

/-- **C168, serial.** A router that got the data after some cycles, and asks for the changes after some more, ends with what the last good
cycle had to publish; or it is told to reset. (Under the same conditions.) -/
theorem C168_serial {cfg : Cfg} {env : Slurm.Env} (he : env.Ok) {content : List Byte → Option Slurm.Json} {tals : Cycle ρ U X C S → List Tal.Str}
    (cs more : List (Cycle ρ U X C S)) (hs : ∀ c ∈ cs ++ more, Sane cfg env content (tals c) c) {c c' : Cycle ρ U X C S} {hist hist' : List Slurm.CycleIn}
    (hl : LastGood cfg tals cs c hist) (hl' : LastGood cfg tals (cs ++ more) c' hist') (x : Option Slurm.Lists) (hx : Slurm.InForce env hist' x)
    (o : Nat → Int) (hn : NoFailure o) (cap : Nat) (h1 : 1 ≤ cap) (h2 : cap < 2 ^ 31) (hm : more.length < 2 ^ 32) (now : BitVec 64) (tm : Timers)
    (raw : List Byte) (v : BitVec 8) (hv : v = 0 ∨ v = 1) :
    ∃ k rs st rs' st' old n t n', runCycles cfg env none cs = some (k, rs) ∧ (State.init cap now).updates rs = some st ∧
      (let sent := (handleResetQuery o st st tm v Sock.new).1.sent
       (Rtr.Rfc.decodeStream sent.length (sent.flatMap SendCall.bytes)).bind emptyClient.run = some (synced v old n)) ∧
      (∃ k', runCycles cfg env none (cs ++ more) = some (k', rs')) ∧ (State.init cap now).updates rs' = some st' ∧ Published c' (tals c') x t ∧
      ∃ r, handleSerialQuery o st' tm v (st'.sessionId v) (BitVec.ofNat 32 n) raw Sock.new = some r ∧
        let got := Rtr.Rfc.decodeStream r.1.sent.length (r.1.sent.flatMap SendCall.bytes)
        got.bind (synced v old n).run = some (synced v t n') ∨ got = some [⟨v.toNat, .cacheReset⟩] ∧ cap < more.length := by
  obtain ⟨k', rs', hr', _⟩ := C168_cycles he (cs ++ more) hs
  obtain ⟨k, rs, rs₂, hr, rfl, hlen⟩ := runCycles_append cs more none hr'
  obtain ⟨w1, w2, w3⟩ := results_ok he (fun c hc => hs c (List.mem_append_left _ hc)) hr
  obtain ⟨w1', w2', w3'⟩ := results_ok he hs hr'
  obtain ⟨pre, t0, post, e0, hp, _⟩ := w3 c hist hl
  obtain ⟨pre', t, post', e0', hp', ht⟩ := w3' c' hist' hl'
  obtain ⟨old, hc1, hc2⟩ := snapshots_last pre post t0 hp
  obtain ⟨cur, hd1, hd2⟩ := snapshots_last pre' post' t hp'
  rw [← e0] at hc1
  rw [← e0'] at hd1
  obtain ⟨st, e1, cur', e2, e3⟩ := Rtr.C66_reset_end_to_end_partial o hn cap h1 h2 now rs w1 w2
    (by intro h; rw [h] at hc1; cases hc1) tm v hv
  rw [hc1] at e2
  cases e2
  have hpos : 0 < (snapshots rs).length := by
    cases h : snapshots rs with
    | nil => rw [h] at hc1; cases hc1
    | cons a l => simp
  have hj : (snapshots (rs ++ rs₂))[(snapshots rs).length - 1]? = some old := by
    obtain ⟨q, hq⟩ := snapshots_prefix rs rs₂
    rw [← hq, List.getElem?_append_left (by omega), ← List.getLast?_eq_getElem?]
    exact hc1
  have hlen2 := snapshots_length rs rs₂
  obtain ⟨st', f1, cur', f2, r, f3, f4⟩ := Rtr.C66_serial_end_to_end_partial o hn cap h1 h2 now (rs ++ rs₂) w1' w2'
    ((snapshots rs).length - 1) old hj (by omega) raw tm v hv
  rw [hd1] at f2
  cases f2
  rw [Nat.sub_add_cancel hpos] at f3 f4
  refine ⟨k, rs, st, rs ++ rs₂, st', old, _, t, (BitVec.ofNat 32 (snapshots (rs ++ rs₂)).length).toNat, hr, e1, e3, ⟨k', hr'⟩, f1, ht x hx, r, ?_, ?_⟩
  · rw [BitVec.ofNat_toNat, BitVec.setWidth_eq]; exact f3
  · rcases f4 with f4 | ⟨f4, f5⟩
    · exact .inl (by rw [← synced_same hd2]; exact f4)
    · exact .inr ⟨f4, by omega⟩

end Verif.Sys
