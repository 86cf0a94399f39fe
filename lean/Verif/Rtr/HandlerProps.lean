/-
C09, C10, C11 (handler part) and C12: what the query handlers send.
-/
import Verif.Rtr.HandlerLemmas
import Verif.Rtr.PduProps
import Verif.Rtr.HistoryProps

namespace Verif.Rtr

/-! ### Specification of a response -/

/-- The PDU announcing or withdrawing a VRP. -/
def vrpPdu (v : BitVec 8) (e : Ev Vrp) : Rfc.Pdu :=
  ⟨v.toNat, match e.item.fam with
    | .v4 => .ipv4Prefix (decide (e.flag = .announcement)) e.item.len.toNat e.item.maxLen.toNat
        e.item.prefix_.toNat e.item.asn.toNat
    | .v6 => .ipv6Prefix (decide (e.flag = .announcement)) e.item.len.toNat e.item.maxLen.toNat
        e.item.prefix_.toNat e.item.asn.toNat⟩

/-- The PDU announcing or withdrawing a router key. -/
def rkPdu (v : BitVec 8) (e : Ev RouterKey) : Rfc.Pdu :=
  ⟨v.toNat, .routerKey (decide (e.flag = .announcement)) e.item.ski e.item.as.toNat e.item.spk⟩

/-- End of Data for a version. -/
def eodPdu (v : BitVec 8) (session : BitVec 16) (serial : Serial) (tm : Timers) : Rfc.Pdu :=
  ⟨v.toNat, if v = 1 then .endOfDataV1 session.toNat serial.toNat tm.refresh.toNat tm.retry.toNat tm.expire.toNat
    else .endOfDataV0 session.toNat serial.toNat⟩

/-- The complete data response of RFC 8210 section 8.1/8.2: Cache Response, payloads (router keys only from
version 1 on), End of Data. -/
def dataResponse (v : BitVec 8) (session : BitVec 16) (vrps : List (Ev Vrp)) (keys : List (Ev RouterKey))
    (serial : Serial) (tm : Timers) : List Rfc.Pdu :=
  [⟨v.toNat, .cacheResponse session.toNat⟩] ++ vrps.map (vrpPdu v) ++
    (if v = 0 then [] else keys.map (rkPdu v)) ++ [eodPdu v session serial tm]

/-- What a router sees: the decoded PDUs of the connection, in order. -/
def Sock.seen (k : Sock) : List Rfc.Pdu := k.sent.map SendCall.meaning

/-- No send fails. -/
def NoFailure (o : Nat → Int) : Prop := ∀ n, o n = 0

/-! ### Glue -/

theorem vrpCall_meaning (v : BitVec 8) (e : Ev Vrp) : (vrpCall v e).meaning = vrpPdu v e := by
  unfold vrpCall vrpPdu
  cases e.item.fam <;> rfl

theorem rkCalls_meaning (v : BitVec 8) (es : List (Ev RouterKey)) :
    ((es.map (rkCall v)).flatMap Option.toList).map SendCall.meaning =
      if v = 0 then [] else es.map (rkPdu v) := by
  by_cases h : v = 0
  · rw [if_pos h]
    induction es with
    | nil => rfl
    | cons e es ih => simp [rkCall, h]
  · rw [if_neg h]
    induction es with
    | nil => rfl
    | cons e es ih =>
      simp only [List.map_cons, List.flatMap_cons, List.map_append, ih, rkCall, if_neg h]
      rfl

theorem vrpCalls_meaning (v : BitVec 8) (es : List (Ev Vrp)) :
    ((es.map (fun e => some (vrpCall v e))).flatMap Option.toList).map SendCall.meaning = es.map (vrpPdu v) := by
  rw [flatMap_some_toList, List.map_map]
  exact List.map_congr_left (fun e _ => vrpCall_meaning v e)

theorem loopVrp_eq (o : Nat → Int) (v : BitVec 8) (cur : BitVec 16) (es : List (Ev Vrp)) (s : Sock × Bool) :
    foreachCb (sendDeltaVrp o v cur) es s =
      foreachCb (genSend o v cur) (es.map (fun e => some (vrpCall v e))) s :=
  foreachCb_map _ _ _ (sendDeltaVrp_eq o v cur) es s

theorem loopRk_eq (o : Nat → Int) (v : BitVec 8) (cur : BitVec 16) (es : List (Ev RouterKey)) (s : Sock × Bool) :
    foreachCb (sendDeltaRk o v cur) es s = foreachCb (genSend o v cur) (es.map (rkCall v)) s :=
  foreachCb_map _ _ _ (sendDeltaRk_eq o v cur) es s

/-! ### C09: reset queries -/

/-- C09 for Reset Queries (and C12: the exact response). Whatever sends fail, either the router sees the complete
response and the handler succeeds, or the handler fails and the router sees a proper prefix of it - so no End of
Data, which is the last PDU - possibly followed by one Internal Error report. -/
theorem C09_reset_query (o : Nat → Int) (ho : ValidOracle o) (st1 st2 : State) (tm : Timers) (v : BitVec 8)
    (serial : Serial) (base : Table) (h1 : st1.lastSerial = some serial) (h2 : st2.base = some base) :
    let full := dataResponse v (st2.sessionId v) (base.roas.map (⟨.announcement, ·⟩))
      (base.keys.map (⟨.announcement, ·⟩)) serial tm
    let r := handleResetQuery o st1 st2 tm v Sock.new
    (r.2 = 0 ∧ r.1.seen = full) ∨
    (r.2 ≠ 0 ∧ (∃ n, o n ≠ 0) ∧ ∃ pre, pre <+: full ∧ pre ≠ full ∧
      (r.1.seen = pre ∨ r.1.seen = pre ++ [⟨v.toNat, .errorReport 1 [] []⟩])) := by
  intro full r
  generalize hcur : st2.sessionId v = cur at *
  have hr : r = handleResetQuery o st1 st2 tm v Sock.new := rfl
  unfold handleResetQuery at hr
  rw [h1, h2] at hr
  simp only [hcur] at hr
  rw [loopVrp_eq] at hr
  simp only [loopRk_eq] at hr
  -- calls and their meaning
  generalize hV : ((base.roas.map (fun x => (⟨.announcement, x⟩ : Ev Vrp))).map
    (fun e => some (vrpCall v e))) = V at hr
  generalize hK : ((base.keys.map (fun x => (⟨.announcement, x⟩ : Ev RouterKey))).map (rkCall v)) = K at hr
  have hfull : full = [⟨v.toNat, .cacheResponse cur.toNat⟩] ++ (V.flatMap Option.toList).map SendCall.meaning ++
      (K.flatMap Option.toList).map SendCall.meaning ++ [eodPdu v cur serial tm] := by
    rw [← hV, ← hK, vrpCalls_meaning, rkCalls_meaning, ← hcur]
    rfl
  obtain ⟨d1, s1⟩ := loop_sends o v cur V (Sock.new, false)
  -- an error code from the oracle
  have hcode : ∀ e n, o n = e → e ≠ 0 → e ≠ -EAGAIN := by
    intro e n hn he hh
    rcases ho n with h | h | h
    · exact he (hn ▸ h)
    · rw [hn, hh] at h; revert h; decide
    · rw [hn, hh] at h; revert h; decide
  -- a proper prefix
  have proper : ∀ (b : Bool) (d rest : List SendCall), (b = false → d = []) →
      d ++ rest = V.flatMap Option.toList ++ K.flatMap Option.toList →
      ((if b then [SendCall.cacheResponse v cur] else []) ++ d).map SendCall.meaning <+: full ∧
      ((if b then [SendCall.cacheResponse v cur] else []) ++ d).map SendCall.meaning ≠ full := by
    intro b d rest hb hd
    have hdm : d.map SendCall.meaning ++ rest.map SendCall.meaning =
        (V.flatMap Option.toList).map SendCall.meaning ++ (K.flatMap Option.toList).map SendCall.meaning := by
      rw [← List.map_append, hd, List.map_append]
    have hfl : full.length = d.length + rest.length + 2 := by
      have := congrArg List.length hdm
      simp only [List.length_append, List.length_map] at this
      rw [hfull]
      simp only [List.length_append, List.length_map, List.length_singleton]
      omega
    cases b with
    | true =>
      constructor
      · refine ⟨rest.map SendCall.meaning ++ [eodPdu v cur serial tm], ?_⟩
        rw [hfull]
        simp only [if_true, List.map_append, List.append_assoc, List.map_cons, List.map_nil]
        rw [← List.append_assoc (d.map _), hdm, List.append_assoc]
        rfl
      · intro hh
        have := congrArg List.length hh
        simp at this
        omega
    | false =>
      have := hb rfl
      subst this
      constructor
      · simp
      · intro hh
        have := congrArg List.length hh
        simp at this
        omega
  generalize hr1 : foreachCb (genSend o v cur) V (Sock.new, false) = r1 at *
  by_cases he1 : r1.2 = 0
  · simp only [he1, ne_eq, not_true_eq_false, if_false] at hr
    rw [he1] at s1
    obtain ⟨d2, s2⟩ := loop_sends o v cur K r1.1
    generalize hr2 : foreachCb (genSend o v cur) K r1.1 = r2 at *
    have s12 := s1.trans s2
    by_cases he2 : r2.2 = 0
    · rw [if_pos he2] at hr
      rw [he2] at s12
      obtain ⟨s3, hb3⟩ := cacheResponseMaybe_sends o v cur r2.1
      generalize hr3 : cacheResponseMaybe o v cur r2.1 = r3 at *
      by_cases he3 : r3.2 = 0
      · rw [if_neg (by simp [he3])] at hr
        rw [he3] at s3
        have s123 := s12.trans s3
        have hb := hb3 he3
        have hall := s123.all rfl
        have hsent := s123.sent
        simp only [Sock.new, hb, and_self, if_true, List.nil_append] at hsent
        unfold sendResponse at hr
        by_cases hos : o r3.1.1.attempts = 0
        · rw [if_pos hos] at hr
          left
          rw [hr]
          refine ⟨rfl, ?_⟩
          rw [Sock.seen]
          simp only [hsent, hall, hfull]
          simp [SendCall.meaning, eodPdu]
        · rw [if_neg hos] at hr
          right
          rw [hr]
          refine ⟨hos, ⟨_, hos⟩, _, (proper true _ [] (by simp) (by simpa using hall)).1,
            (proper true _ [] (by simp) (by simpa using hall)).2, Or.inl ?_⟩
          rw [Sock.seen]
          simp [hsent]
      · rw [if_pos he3] at hr
        right
        rw [hr]
        have s123 := s12.trans s3
        obtain ⟨t, ht⟩ := s123.pre
        simp only [List.append_nil] at ht
        have := proper r3.1.2 (d1 ++ d2) t (fun h => by simpa using s123.notStarted h) (by rw [← ht])
        refine ⟨he3, (s123.err he3).imp (fun n h => by rw [h.2]; exact he3), _, this.1, this.2, Or.inl ?_⟩
        rw [Sock.seen, s123.sent]
        cases r3.1.2 <;> simp [Sock.new]
    · rw [if_neg he2] at hr
      obtain ⟨n, _, hn⟩ := s12.err he2
      rw [if_neg (hcode _ n hn he2)] at hr
      right
      obtain ⟨t, ht⟩ := s12.pre
      have := proper r2.1.2 (d1 ++ d2) t (fun h => by simpa using s12.notStarted h) ht
      have hsn : r2.1.1.seen = ((if r2.1.2 then [SendCall.cacheResponse v cur] else []) ++ (d1 ++ d2)).map
          SendCall.meaning := by
        rw [Sock.seen, s12.sent]
        cases r2.1.2 <;> simp [Sock.new]
      by_cases hag : r2.2 = EAGAIN
      · rw [if_pos hag] at hr
        rw [hr]
        refine ⟨he2, ⟨n, by rw [hn]; exact he2⟩, _, this.1, this.2, ?_⟩
        unfold errInternal sendResponse
        split
        · right
          rw [← hsn]
          simp [Sock.seen, SendCall.meaning, computeErrorPduLen]
        · left
          rw [← hsn]
          rfl
      · rw [if_neg hag] at hr
        rw [hr]
        exact ⟨he2, ⟨n, by rw [hn]; exact he2⟩, _, this.1, this.2, Or.inl hsn⟩
  · simp only [ne_eq, he1, not_false_eq_true, if_true, if_false] at hr
    obtain ⟨n, _, hn⟩ := s1.err he1
    rw [if_neg (hcode _ n hn he1)] at hr
    right
    obtain ⟨t, ht⟩ := s1.pre
    have := proper r1.1.2 d1 (t ++ K.flatMap Option.toList) (fun h => by simpa using s1.notStarted h)
      (by rw [← List.append_assoc, ht])
    have hsn : r1.1.1.seen = ((if r1.1.2 then [SendCall.cacheResponse v cur] else []) ++ d1).map
        SendCall.meaning := by
      rw [Sock.seen, s1.sent]
      cases r1.1.2 <;> simp [Sock.new]
    by_cases hag : r1.2 = EAGAIN
    · rw [if_pos hag] at hr
      rw [hr]
      refine ⟨he1, ⟨n, by rw [hn]; exact he1⟩, _, this.1, this.2, ?_⟩
      unfold errInternal sendResponse
      split
      · right
        rw [← hsn]
        simp [Sock.seen, SendCall.meaning, computeErrorPduLen]
      · left
        rw [← hsn]
        rfl
    · rw [if_neg hag] at hr
      rw [hr]
      exact ⟨he1, ⟨n, by rw [hn]; exact he1⟩, _, this.1, this.2, Or.inl hsn⟩

/-- The fourth send fails with EPIPE (32): the response stops there. -/
example :
    let base : Table := ⟨[exV1, exV2], [⟨List.replicate 20 7, 5, List.replicate 91 9⟩]⟩
    let st : State := { State.init 5 0 with base := some base, serial := 1 }
    (handleResetQuery (fun n => if n = 3 then 32 else 0) st st ⟨3600, 600, 7200⟩ 1 Sock.new).1.seen =
      [⟨1, .cacheResponse 65535⟩, vrpPdu 1 ⟨.announcement, exV1⟩, vrpPdu 1 ⟨.announcement, exV2⟩] := by decide

/-! ### C09 and C12: serial queries -/

/-- C09/C12 for Serial Queries answered with data. Whatever sends fail, the router sees the Cache Response first,
then a prefix of the VRPs, then a prefix of the router keys, then possibly End of Data; if no send fails, it sees
the complete response. (The full property C09 - no End of Data after a failed send - does not hold, see
`C09_serial_query_refuted`.) -/
theorem C09_serial_query_partial (o : Nat → Int) (st : State) (tm : Timers) (v : BitVec 8) (serial : Serial)
    (raw : List Byte) (l : Lists) (to_ : Serial) (h : st.deltaSince serial = .send l to_) :
    ∃ r, handleSerialQuery o st tm v (st.sessionId v) serial raw Sock.new = some r ∧
      ∃ (started ended : Bool) (dv dk : List Rfc.Pdu),
        dv <+: l.vrps.map (vrpPdu v) ∧
        dk <+: (if v = 0 then [] else l.rks.map (rkPdu v)) ∧
        (started = false → dv = [] ∧ dk = [] ∧ ended = false) ∧
        r.1.seen = (if started then [⟨v.toNat, .cacheResponse (st.sessionId v).toNat⟩] else []) ++ dv ++ dk ++
          (if ended then [eodPdu v (st.sessionId v) to_ tm] else []) ∧
        (NoFailure o → r.2 = 0 ∧ r.1.seen = dataResponse v (st.sessionId v) l.vrps l.rks to_ tm) := by
  generalize hcur : st.sessionId v = cur
  have hq : handleSerialQuery o st tm v cur serial raw Sock.new =
      (let r1 := foreachCb (sendDeltaVrp o v cur) l.vrps (Sock.new, false)
       let r2 := foreachCb (sendDeltaRk o v cur) l.rks r1.1
       let c := cacheResponseMaybe o v cur r2.1
       if c.2 ≠ 0 then some (c.1.1, c.2)
       else some (sendResponse o c.1.1 (.endOfData v cur to_ tm.refresh tm.retry tm.expire))) := by
    unfold handleSerialQuery
    simp only [hcur, ne_eq, not_true_eq_false, if_false, h]
  rw [hq, loopVrp_eq]
  simp only [loopRk_eq]
  obtain ⟨d1, s1⟩ := loop_sends o v cur (l.vrps.map (fun e => some (vrpCall v e))) (Sock.new, false)
  generalize foreachCb (genSend o v cur) (l.vrps.map (fun e => some (vrpCall v e))) (Sock.new, false) = r1 at *
  obtain ⟨d2, s2⟩ := loop_sends o v cur (l.rks.map (rkCall v)) r1.1
  generalize foreachCb (genSend o v cur) (l.rks.map (rkCall v)) r1.1 = r2 at *
  obtain ⟨s3, hb3⟩ := cacheResponseMaybe_sends o v cur r2.1
  generalize cacheResponseMaybe o v cur r2.1 = r3 at *
  have hv := vrpCalls_meaning v l.vrps
  have hk := rkCalls_meaning v l.rks
  generalize hV : (l.vrps.map (fun e => some (vrpCall v e))).flatMap Option.toList = V at *
  generalize hK : (l.rks.map (rkCall v)).flatMap Option.toList = K at *
  have hpv : d1.map SendCall.meaning <+: l.vrps.map (vrpPdu v) := by
    rw [← hv]; exact s1.pre.map _
  have hpk : d2.map SendCall.meaning <+: (if v = 0 then [] else l.rks.map (rkPdu v)) := by
    rw [← hk]; exact s2.pre.map _
  -- what is on the wire after the three phases
  have hwire : r3.1.1.sent = (if r3.1.2 then [SendCall.cacheResponse v cur] else []) ++ d1 ++ d2 := by
    rw [s3.sent, s2.sent, s1.sent]
    cases hb1 : r1.1.2 with
    | true =>
      have hb2 := s2.mono hb1
      have hb3' := s3.mono hb2
      simp [hb2, hb3', Sock.new]
    | false =>
      have := s1.notStarted hb1
      subst this
      cases hb2 : r2.1.2 with
      | true =>
        have hb3' := s3.mono hb2
        simp [hb3', Sock.new]
      | false =>
        have := s2.notStarted hb2
        subst this
        cases hb3' : r3.1.2 <;> simp [Sock.new]
  have hns : r3.1.2 = false → d1 = [] ∧ d2 = [] := by
    intro hb
    have hb2 : r2.1.2 = false := by
      by_contra hh
      have := s3.mono (by simpa using hh)
      simp [hb] at this
    have hb1 : r1.1.2 = false := by
      by_contra hh
      have := s2.mono (by simpa using hh)
      simp [hb2] at this
    exact ⟨s1.notStarted hb1, s2.notStarted hb2⟩
  have noerr : NoFailure o → r1.2 = 0 ∧ r2.2 = 0 ∧ r3.2 = 0 := by
    intro hn
    refine ⟨?_, ?_, ?_⟩
    · by_contra hh; obtain ⟨n, _, h⟩ := s1.err hh; rw [hn n] at h; exact hh h.symm
    · by_contra hh; obtain ⟨n, _, h⟩ := s2.err hh; rw [hn n] at h; exact hh h.symm
    · by_contra hh; obtain ⟨n, _, h⟩ := s3.err hh; rw [hn n] at h; exact hh h.symm
  by_cases he3 : r3.2 = 0
  · have hb := hb3 he3
    rw [if_neg (by simp [he3])]
    refine ⟨_, rfl, ?_⟩
    unfold sendResponse
    by_cases ho : o r3.1.1.attempts = 0
    · rw [if_pos ho]
      refine ⟨true, true, d1.map SendCall.meaning, d2.map SendCall.meaning, hpv, hpk, by simp, ?_, ?_⟩
      · simp [Sock.seen, hwire, hb, SendCall.meaning, eodPdu]
      · intro hn
        obtain ⟨e1, e2, _⟩ := noerr hn
        refine ⟨rfl, ?_⟩
        simp only [Sock.seen, hwire, hb, s1.all e1, s2.all e2]
        simp only [if_true, List.map_append, hv, hk, dataResponse, List.map_cons, List.map_nil]
        rfl
    · rw [if_neg ho]
      refine ⟨true, false, d1.map SendCall.meaning, d2.map SendCall.meaning, hpv, hpk, by simp, ?_, ?_⟩
      · simp [Sock.seen, hwire, hb, SendCall.meaning]
      · intro hn; exact absurd (hn _) ho
  · rw [if_pos he3]
    refine ⟨_, rfl, r3.1.2, false, d1.map SendCall.meaning, d2.map SendCall.meaning, hpv, hpk, ?_, ?_, ?_⟩
    · intro hb; obtain ⟨h1, h2⟩ := hns hb; simp [h1, h2]
    · simp only [Sock.seen, hwire]
      cases r3.1.2 <;> simp [SendCall.meaning]
    · intro hn; exact absurd (noerr hn).2.2 he3

/-- C09 is false for Serial Queries: with the second send failing (EAGAIN: the socket buffer is full), the only
VRP of the delta is lost, and yet the router is told that it is synchronized with serial 2. -/
theorem C09_serial_query_refuted :
    ∃ st, (State.init 5 0).updates [some ⟨[exV1], []⟩, some ⟨[exV1, exV2], []⟩] = some st ∧
      st.deltaSince 1 = .send ⟨[⟨.announcement, exV2⟩], []⟩ 2 ∧
      ValidOracle (fun n => if n = 1 then EAGAIN else 0) ∧
      ∃ r, handleSerialQuery (fun n => if n = 1 then EAGAIN else 0) st ⟨3600, 600, 7200⟩ 1 (st.sessionId 1) 1 []
          Sock.new = some r ∧ r.2 = 0 ∧
        r.1.seen = [⟨1, .cacheResponse (st.sessionId 1).toNat⟩,
          eodPdu 1 (st.sessionId 1) 2 ⟨3600, 600, 7200⟩] := by
  refine ⟨_, rfl, by decide, ?_, _, rfl, by decide, by decide⟩
  intro n
  by_cases h : n = 1
  · right; right; simp [h, EAGAIN]
  · left; simp [h]

/-! ### C10: reset queries and concurrent updates -/

/-- C10, the part that holds: if no update lands between the two locked regions of the handler (`st1 = st2`) and
no send fails, then the response announces exactly the current data set, once each, and names its serial. -/
theorem C10_reset_snapshot_partial (o : Nat → Int) (hn : NoFailure o) (cap : Nat) (h1 : 1 ≤ cap) (h2 : cap < 2 ^ 31)
    (now : BitVec 64) (rs : List (Option Table)) (hrs : ResultsWF rs) (hne : snapshots rs ≠ []) (tm : Timers)
    (v : BitVec 8) :
    ∃ st, (State.init cap now).updates rs = some st ∧ ∃ cur, (snapshots rs).getLast? = some cur ∧
      (handleResetQuery o st st tm v Sock.new).1.seen =
        dataResponse v (st.sessionId v) (cur.roas.map (⟨.announcement, ·⟩)) (cur.keys.map (⟨.announcement, ·⟩))
          (BitVec.ofNat 32 (snapshots rs).length) tm ∧
      Router.run ∅ (cur.roas.map (⟨.announcement, ·⟩)) = some cur.vrpSet ∧
      Router.run ∅ (cur.keys.map (⟨.announcement, ·⟩)) = some cur.keySet := by
  obtain ⟨st, hst, hinv⟩ := (State.inv_init h1 h2 now).updates hrs
  change st.Inv cap (snapshots rs) at hinv
  generalize snapshots rs = snaps at *
  refine ⟨st, hst, snaps.getLast hne, List.getLast?_eq_some_getLast hne, ?_, ?_, ?_⟩
  · have hb : st.base = some (snaps.getLast hne) := by rw [hinv.base, List.getLast?_eq_some_getLast hne]
    have hl : st.lastSerial = some st.serial := by unfold State.lastSerial; rw [hb]
    have ho : ValidOracle o := fun n => Or.inl (hn n)
    rcases C09_reset_query o ho st st tm v st.serial (snaps.getLast hne) hl hb with h | ⟨_, ⟨n, h⟩, _⟩
    · rw [h.2, hinv.serial]
    · exact absurd (hn n) h
  · have hw := hinv.wf (snaps.getLast hne) (List.getLast_mem hne)
    rw [run_announce _ _ hw.roasNodup (by simp)]
    simp [Table.vrpSet]
  · have hw := hinv.wf (snaps.getLast hne) (List.getLast_mem hne)
    rw [run_announce _ _ hw.keysNodup (by simp)]
    simp [Table.keySet]

/-- C10 is false: when an update lands between reading the serial and reading the data, the router receives the
data of serial 2 labelled as serial 1. The Serial Query that follows then makes it announce a record twice, which
a strict router rejects. -/
theorem C10_reset_race_refuted :
    ∃ st1 st2, (State.init 5 0).updates [some ⟨[exV1], []⟩] = some st1 ∧
      st1.update (some ⟨[exV1, exV2], []⟩) = (st2, .ok true) ∧
      (handleResetQuery (fun _ => 0) st1 st2 ⟨3600, 600, 7200⟩ 1 Sock.new).1.seen =
        dataResponse 1 (st1.sessionId 1) [⟨.announcement, exV1⟩, ⟨.announcement, exV2⟩] [] 1 ⟨3600, 600, 7200⟩ ∧
      st2.deltaSince 1 = .send ⟨[⟨.announcement, exV2⟩], []⟩ 2 ∧
      Router.run {exV1, exV2} [⟨.announcement, exV2⟩] = none := by
  refine ⟨_, _, rfl, rfl, by decide, by decide, by decide⟩

/-! ### C11 (handler) and C12 -/

/-- C11: a Serial Query with a wrong session ID gets exactly one Corrupt Data report, which embeds the query, no
payload, and ends the connection (nonzero return value). `raw` is the query itself (its type byte is 1). -/
theorem C11_wrong_session (o : Nat → Int) (st : State) (tm : Timers) (v : BitVec 8) (session : BitVec 16)
    (serial : Serial) (raw : List Byte) (hraw : raw[1]? = some 1) (hs : session ≠ st.sessionId v) :
    ∃ r, handleSerialQuery o st tm v session serial raw Sock.new = some r ∧ r.2 ≠ 0 ∧
      (r.1.sent = [] ∨ r.1.sent = [.errorReport v 0 (some raw) (some sessionMsg)]) ∧
      (o 0 = 0 → r.1.sent = [.errorReport v 0 (some raw) (some sessionMsg)]) := by
  unfold handleSerialQuery
  simp only
  rw [if_pos hs]
  unfold errPduSend
  simp only [hraw]
  rw [if_pos (by decide)]
  refine ⟨_, rfl, by simp [EINVAL], ?_, ?_⟩
  · unfold sendResponse
    split
    · right; rfl
    · left; rfl
  · intro h
    simp [sendResponse, Sock.new, h]

example : ([1, 1, 0, 5, 0, 0, 0, 12, 0, 0, 0, 1] : List Byte)[1]? = some 1 ∧
    (5 : BitVec 16) ≠ (State.init 5 0).sessionId 1 := by decide

/-- Payload PDU kinds of a version. -/
def isPayload (v : BitVec 8) (p : Rfc.Pdu) : Prop :=
  p.version = v.toNat ∧ match p.body with
    | .ipv4Prefix .. | .ipv6Prefix .. => True
    | .routerKey .. => v ≠ 0
    | _ => False

/-- End of Data PDU of a version. -/
def isEod (v : BitVec 8) (session : BitVec 16) (p : Rfc.Pdu) : Prop :=
  p.version = v.toNat ∧ match p.body with
    | .endOfDataV0 s _ => v = 0 ∧ s = session.toNat
    | .endOfDataV1 s _ _ _ _ => v = 1 ∧ s = session.toNat
    | _ => False

/-- The response grammar of RFC 8210 sections 8.1-8.4. -/
inductive Response (v : BitVec 8) (session : BitVec 16) : List Rfc.Pdu → Prop
  | data (payload : List Rfc.Pdu) (eod : Rfc.Pdu) (h1 : ∀ p ∈ payload, isPayload v p) (h2 : isEod v session eod) :
      Response v session ([⟨v.toNat, .cacheResponse session.toNat⟩] ++ payload ++ [eod])
  | cacheReset : Response v session [⟨v.toNat, .cacheReset⟩]
  | error (code : Nat) (pdu text : List Byte) : Response v session [⟨v.toNat, .errorReport code pdu text⟩]

theorem dataResponse_response (v : BitVec 8) (hv : v = 0 ∨ v = 1) (session : BitVec 16) (vrps : List (Ev Vrp))
    (keys : List (Ev RouterKey)) (serial : Serial) (tm : Timers) :
    Response v session (dataResponse v session vrps keys serial tm) := by
  unfold dataResponse
  rw [List.append_assoc [_]]
  refine Response.data _ _ ?_ ?_
  · intro p hp
    rcases List.mem_append.1 hp with h | h
    · obtain ⟨e, _, rfl⟩ := List.mem_map.1 h
      refine ⟨rfl, ?_⟩
      unfold vrpPdu
      cases e.item.fam <;> trivial
    · by_cases h0 : v = 0
      · rw [if_pos h0] at h; simp at h
      · rw [if_neg h0] at h
        obtain ⟨e, _, rfl⟩ := List.mem_map.1 h
        exact ⟨rfl, h0⟩
  · rcases hv with rfl | rfl <;> exact ⟨rfl, rfl, rfl⟩

/-- C12. When no send fails, what a router of version 0 or 1 sees after a Serial Query is a response of the
grammar (for every session ID, serial and database without undefined behaviour). -/
theorem C12_serial_query (o : Nat → Int) (hn : NoFailure o) (st : State) (tm : Timers) (v : BitVec 8)
    (hv : v = 0 ∨ v = 1) (session : BitVec 16) (serial : Serial) (raw : List Byte) (hraw : raw[1]? = some 1)
    (hub : st.deltaSince serial ≠ .ub) :
    ∃ r, handleSerialQuery o st tm v session serial raw Sock.new = some r ∧
      Response v (st.sessionId v) r.1.seen := by
  by_cases hs : session = st.sessionId v
  · subst hs
    cases hd : st.deltaSince serial with
    | ub => exact absurd hd hub
    | send l to_ =>
      obtain ⟨r, hr, _, _, _, _, _, _, _, _, h⟩ := C09_serial_query_partial o st tm v serial raw l to_ hd
      refine ⟨r, hr, ?_⟩
      rw [(h hn).2]
      exact dataResponse_response v hv _ _ _ _ _
    | noData =>
      refine ⟨errNoData o Sock.new v, ?_, ?_⟩
      · unfold handleSerialQuery; simp [hd]
      · have : (errNoData o Sock.new v).1.seen = [⟨v.toNat, .errorReport 2 [] []⟩] := by
          simp [errNoData, sendResponse, hn _, Sock.seen, Sock.new, SendCall.meaning, computeErrorPduLen]
        rw [this]
        exact Response.error _ _ _
    | cacheReset =>
      refine ⟨sendResponse o Sock.new (.cacheReset v), ?_, ?_⟩
      · unfold handleSerialQuery; simp [hd]
      · have : (sendResponse o Sock.new (.cacheReset v)).1.seen = [⟨v.toNat, .cacheReset⟩] := by
          simp [sendResponse, hn _, Sock.seen, Sock.new, SendCall.meaning]
        rw [this]
        exact Response.cacheReset
  · obtain ⟨r, hr, _, _, h⟩ := C11_wrong_session o st tm v session serial raw hraw hs
    refine ⟨r, hr, ?_⟩
    rw [Sock.seen, h (hn 0)]
    exact Response.error _ _ _

/-- C12 for Reset Queries: the same, also with concurrent updates. -/
theorem C12_reset_query (o : Nat → Int) (hn : NoFailure o) (st1 st2 : State) (tm : Timers) (v : BitVec 8)
    (hv : v = 0 ∨ v = 1) :
    Response v (st2.sessionId v) (handleResetQuery o st1 st2 tm v Sock.new).1.seen := by
  have hno : ∀ st : State, Response v (st.sessionId v) (errNoData o Sock.new v).1.seen := by
    intro st
    have : (errNoData o Sock.new v).1.seen = [⟨v.toNat, .errorReport 2 [] []⟩] := by
      simp [errNoData, sendResponse, hn _, Sock.seen, Sock.new, SendCall.meaning, computeErrorPduLen]
    rw [this]
    exact Response.error _ _ _
  cases h1 : st1.lastSerial with
  | none => unfold handleResetQuery; rw [h1]; exact hno st2
  | some serial =>
    cases h2 : st2.base with
    | none => unfold handleResetQuery; rw [h1, h2]; exact hno st2
    | some base =>
      rcases C09_reset_query o (fun n => Or.inl (hn n)) st1 st2 tm v serial base h1 h2 with h | ⟨_, ⟨n, h⟩, _⟩
      · rw [h.2]; exact dataResponse_response v hv _ _ _ _ _
      · exact absurd (hn n) h

/-- Every PDU of a data response has the negotiated version, and version 0 has no router key. -/
theorem dataResponse_versions (v : BitVec 8) (session : BitVec 16) (vrps : List (Ev Vrp))
    (keys : List (Ev RouterKey)) (serial : Serial) (tm : Timers) :
    ∀ p ∈ dataResponse v session vrps keys serial tm,
      p.version = v.toNat ∧ (v = 0 → ∀ a s n k, p.body ≠ .routerKey a s n k) := by
  intro p hp
  simp only [dataResponse, List.mem_append, List.mem_singleton, List.mem_map] at hp
  rcases hp with ((rfl | ⟨e, _, rfl⟩) | h) | rfl
  · simp
  · refine ⟨rfl, ?_⟩
    unfold vrpPdu
    cases e.item.fam <;> simp
  · split at h
    · simp at h
    · rename_i h0
      obtain ⟨e, _, rfl⟩ := List.mem_map.1 h
      exact ⟨rfl, fun h => absurd h h0⟩
  · refine ⟨rfl, ?_⟩
    unfold eodPdu
    intro _ a s n k
    split <;> simp

/-- C12, also when sends fail: every PDU a Reset Query yields carries the version of the query, and a version 0
router never sees a router key. -/
theorem C12_reset_query_versions (o : Nat → Int) (ho : ValidOracle o) (st1 st2 : State) (tm : Timers)
    (v : BitVec 8) :
    ∀ p ∈ (handleResetQuery o st1 st2 tm v Sock.new).1.seen,
      p.version = v.toNat ∧ (v = 0 → ∀ a s n k, p.body ≠ .routerKey a s n k) := by
  have hno : ∀ p ∈ (errNoData o Sock.new v).1.seen,
      p.version = v.toNat ∧ (v = 0 → ∀ a s n k, p.body ≠ .routerKey a s n k) := by
    intro p hp
    unfold errNoData sendResponse at hp
    split at hp <;> simp [Sock.seen, Sock.new, SendCall.meaning] at hp
    subst hp
    simp
  cases h1 : st1.lastSerial with
  | none => unfold handleResetQuery; rw [h1]; exact hno
  | some serial =>
    cases h2 : st2.base with
    | none => unfold handleResetQuery; rw [h1, h2]; exact hno
    | some base =>
      have hd := dataResponse_versions v (st2.sessionId v) (base.roas.map (⟨.announcement, ·⟩))
        (base.keys.map (⟨.announcement, ·⟩)) serial tm
      intro p hp
      rcases C09_reset_query o ho st1 st2 tm v serial base h1 h2 with h | ⟨_, _, pre, hpre, _, h | h⟩
      · rw [h.2] at hp; exact hd p hp
      · rw [h] at hp; exact hd p (hpre.subset hp)
      · rw [h] at hp
        rcases List.mem_append.1 hp with hp | hp
        · exact hd p (hpre.subset hp)
        · rw [List.mem_singleton] at hp; subst hp; simp

/-- The same for Serial Queries. -/
theorem C12_serial_query_versions (o : Nat → Int) (st : State) (tm : Timers) (v : BitVec 8) (session : BitVec 16)
    (serial : Serial) (raw : List Byte) (hraw : raw[1]? = some 1) (r : Sock × Int)
    (hr : handleSerialQuery o st tm v session serial raw Sock.new = some r) :
    ∀ p ∈ r.1.seen, p.version = v.toNat ∧ (v = 0 → ∀ a s n k, p.body ≠ .routerKey a s n k) := by
  intro p hp
  by_cases hs : session = st.sessionId v
  · subst hs
    cases hd : st.deltaSince serial with
    | ub => unfold handleSerialQuery at hr; simp [hd] at hr
    | send l to_ =>
      obtain ⟨r', hr', started, ended, dv, dk, h1, h2, _, h4, _⟩ :=
        C09_serial_query_partial o st tm v serial raw l to_ hd
      rw [hr] at hr'
      cases hr'
      have hall := dataResponse_versions v (st.sessionId v) l.vrps l.rks to_ tm
      apply hall
      rw [h4] at hp
      simp only [dataResponse, List.mem_append] at hp ⊢
      rcases hp with ((hp | hp) | hp) | hp
      · left; left; left
        cases started <;> simpa using hp
      · left; left; right; exact h1.subset hp
      · left; right; exact h2.subset hp
      · right
        cases ended <;> simpa using hp
    | noData =>
      unfold handleSerialQuery at hr
      simp only [hd, ne_eq, not_true_eq_false, if_false, Option.some.injEq] at hr
      subst hr
      unfold errNoData sendResponse at hp
      split at hp <;> simp [Sock.seen, Sock.new, SendCall.meaning] at hp
      subst hp
      simp
    | cacheReset =>
      unfold handleSerialQuery at hr
      simp only [hd, ne_eq, not_true_eq_false, if_false, Option.some.injEq] at hr
      subst hr
      unfold sendResponse at hp
      split at hp <;> simp [Sock.seen, Sock.new, SendCall.meaning] at hp
      subst hp
      simp
  · obtain ⟨r', hr', _, h | h, _⟩ := C11_wrong_session o st tm v session serial raw hraw hs
    · rw [hr] at hr'; cases hr'
      rw [Sock.seen, h] at hp; simp at hp
    · rw [hr] at hr'; cases hr'
      rw [Sock.seen, h] at hp
      simp [SendCall.meaning] at hp
      subst hp
      simp

end Verif.Rtr
