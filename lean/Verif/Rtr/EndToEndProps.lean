/-
C66: end to end, over the bytes on the wire.
-/
import Mathlib.Data.Finset.Image
import Verif.Rtr.SpecRouter
import Verif.Rtr.HandlerProps

namespace Verif.Rtr

open Rfc

theorem recOf_injective : Function.Injective recOf := by
  rintro ⟨a1, f1, p1, l1, m1⟩ ⟨a2, f2, p2, l2, m2⟩ h
  simp only [recOf, VrpRec.mk.injEq, BitVec.toNat_inj] at h
  obtain ⟨h1, rfl, rfl, rfl, rfl⟩ := h
  cases f1 <;> cases f2 <;> simp at h1 ⊢

theorem keyOf_injective : Function.Injective keyOf := by
  rintro ⟨s1, a1, p1⟩ ⟨s2, a2, p2⟩ h
  simp only [keyOf, KeyRec.mk.injEq, BitVec.toNat_inj] at h
  obtain ⟨rfl, rfl, rfl⟩ := h
  rfl

theorem step_image {α β : Type} [DecidableEq α] [DecidableEq β] {f : α → β} (hf : Function.Injective f)
    (S : Finset α) (e : Ev α) :
    Router.step (S.image f) ⟨e.flag, f e.item⟩ = (Router.step S e).map (fun T => T.image f) := by
  obtain ⟨fl, x⟩ := e
  have hm : f x ∈ S.image f ↔ x ∈ S := by
    simp only [Finset.mem_image]
    constructor
    · rintro ⟨y, hy, hxy⟩; rwa [← hf hxy]
    · exact fun h => ⟨x, h, rfl⟩
  cases fl with
  | announcement =>
    simp only [Router.step, hm]
    split
    · rfl
    · simp [Finset.image_insert]
  | withdrawal =>
    simp only [Router.step, hm]
    split
    · simp [Finset.image_erase hf]
    · rfl

theorem run_append_client (c : Client) (l1 l2 : List Rfc.Pdu) :
    c.run (l1 ++ l2) = (c.run l1).bind (fun c' => c'.run l2) := by
  induction l1 generalizing c with
  | nil => rfl
  | cons p ps ih =>
    simp only [List.cons_append, Client.run]
    cases c.step p with
    | none => rfl
    | some c' => simpa using ih c'

theorem flagOf_eq (f : Flag) : flagOf (decide (f = .announcement)) = f := by
  cases f <;> rfl

theorem client_vrps (v : BitVec 8) (es : List (Ev Vrp)) (S T : Finset Vrp) (h : Router.run S es = some T)
    (keys : Finset KeyRec) (serial : Option Nat) :
    Client.run ⟨S.image recOf, keys, serial, true⟩ (es.map (vrpPdu v)) =
      some ⟨T.image recOf, keys, serial, true⟩ := by
  induction es generalizing S with
  | nil => simp only [Router.run, Option.some.injEq] at h; subst h; rfl
  | cons e es ih =>
    simp only [Router.run, Option.bind_eq_some_iff] at h
    obtain ⟨S', h1, h2⟩ := h
    have hs : Client.step ⟨S.image recOf, keys, serial, true⟩ (vrpPdu v e) =
        some ⟨S'.image recOf, keys, serial, true⟩ := by
      have := step_image recOf_injective S e
      rw [h1] at this
      unfold Client.step vrpPdu
      have hr : recOf e.item = ⟨decide (e.item.fam = .v6), e.item.prefix_.toNat, e.item.len.toNat,
        e.item.maxLen.toNat, e.item.asn.toNat⟩ := rfl
      rw [hr] at this
      cases hf : e.item.fam <;> simp only [hf, flagOf_eq, if_true] at this ⊢ <;> simp at this ⊢ <;> exact this
    simp only [List.map_cons, Client.run, hs, Option.bind_some]
    exact ih S' h2

theorem client_keys (v : BitVec 8) (es : List (Ev RouterKey)) (S T : Finset RouterKey)
    (h : Router.run S es = some T) (vrps : Finset VrpRec) (serial : Option Nat) :
    Client.run ⟨vrps, S.image keyOf, serial, true⟩ (es.map (rkPdu v)) =
      some ⟨vrps, T.image keyOf, serial, true⟩ := by
  induction es generalizing S with
  | nil => simp only [Router.run, Option.some.injEq] at h; subst h; rfl
  | cons e es ih =>
    simp only [Router.run, Option.bind_eq_some_iff] at h
    obtain ⟨S', h1, h2⟩ := h
    have hs : Client.step ⟨vrps, S.image keyOf, serial, true⟩ (rkPdu v e) =
        some ⟨vrps, S'.image keyOf, serial, true⟩ := by
      have := step_image keyOf_injective S e
      rw [h1] at this
      have hr : keyOf e.item = ⟨e.item.ski, e.item.as.toNat, e.item.spk⟩ := rfl
      rw [hr] at this
      simp only [Client.step, rkPdu, flagOf_eq, if_true, this]
      rfl
    simp only [List.map_cons, Client.run, hs, Option.bind_some]
    exact ih S' h2

/-- A strict router that processes a whole data response. -/
theorem client_dataResponse (v : BitVec 8) (hv : v = 0 ∨ v = 1) (session : BitVec 16) (vrps : List (Ev Vrp))
    (keys : List (Ev RouterKey)) (n : Serial) (tm : Timers) (S T : Finset Vrp) (K L : Finset RouterKey)
    (h1 : Router.run S vrps = some T) (h2 : Router.run K keys = some L) (serial : Option Nat) :
    Client.run ⟨S.image recOf, K.image keyOf, serial, false⟩ (dataResponse v session vrps keys n tm) =
      some ⟨T.image recOf, (if v = 0 then K else L).image keyOf, some n.toNat, false⟩ := by
  unfold dataResponse
  rw [run_append_client, run_append_client, run_append_client]
  have e0 : Client.run ⟨S.image recOf, K.image keyOf, serial, false⟩ [⟨v.toNat, .cacheResponse session.toNat⟩] =
    some ⟨S.image recOf, K.image keyOf, serial, true⟩ := rfl
  rw [e0, Option.bind_some, client_vrps v vrps S T h1, Option.bind_some]
  rcases hv with rfl | rfl
  · rfl
  · rw [if_neg (by decide), client_keys 1 keys K L h2, Option.bind_some]
    rfl

/-- The table's router keys have the sizes of the C struct (RK_SKI_LEN = 20, RK_SPKI_LEN = 91). -/
def Table.KeysSized (t : Table) : Prop := ∀ k ∈ t.keys, k.ski.length = 20 ∧ k.spk.length = 91

/-- The calls of a complete data response. -/
def dataCalls (v : BitVec 8) (session : BitVec 16) (vrps : List (Ev Vrp)) (keys : List (Ev RouterKey))
    (n : Serial) (tm : Timers) : List SendCall :=
  [SendCall.cacheResponse v session] ++ vrps.map (vrpCall v) ++
    (keys.map (rkCall v)).flatMap Option.toList ++ [.endOfData v session n tm.refresh tm.retry tm.expire]

/-- The calls of a data response are well formed when the items are. -/
theorem sent_wf_of_meaning (v : BitVec 8) (hv : v = 0 ∨ v = 1) (session : BitVec 16) (vrps : List (Ev Vrp))
    (keys : List (Ev RouterKey)) (n : Serial) (tm : Timers)
    (hvr : ∀ e ∈ vrps, e.item.WF) (hk : ∀ e ∈ keys, e.item.ski.length = 20 ∧ e.item.spk.length = 91) :
    ∀ c ∈ dataCalls v session vrps keys n tm, c.WF := by
  intro c hc
  unfold dataCalls at hc
  simp only [List.mem_append, List.mem_singleton, List.mem_map, List.mem_flatMap] at hc
  rcases hc with ((rfl | ⟨e, he, rfl⟩) | ⟨_, ⟨e, he, rfl⟩, h⟩) | rfl
  · exact hv
  · have := hvr e he
    unfold vrpCall
    cases hf : e.item.fam with
    | v4 => exact ⟨hv, this hf⟩
    | v6 => exact hv
  · unfold rkCall at h
    by_cases h0 : v = 0
    · simp [h0] at h
    · rw [if_neg h0] at h
      simp only [Option.toList_some, List.mem_singleton] at h
      subst h
      refine ⟨?_, hk e he⟩
      rcases hv with h | h
      · exact absurd h h0
      · exact h
  · exact hv

theorem noFail_loops (o : Nat → Int) (hn : NoFailure o) (v : BitVec 8) (cur : BitVec 16) (V K : List (Option SendCall)) :
    let r1 := foreachCb (genSend o v cur) V (Sock.new, false)
    let r2 := foreachCb (genSend o v cur) K r1.1
    let c := cacheResponseMaybe o v cur r2.1
    r1.2 = 0 ∧ r2.2 = 0 ∧ c.2 = 0 ∧
      c.1.1.sent = [.cacheResponse v cur] ++ V.flatMap Option.toList ++ K.flatMap Option.toList := by
  intro r1 r2 c
  obtain ⟨d1, s1⟩ := loop_sends o v cur V (Sock.new, false)
  obtain ⟨d2, s2⟩ := loop_sends o v cur K r1.1
  obtain ⟨s3, hb3⟩ := cacheResponseMaybe_sends o v cur r2.1
  have e1 : r1.2 = 0 := by
    by_contra hh; obtain ⟨n, _, h⟩ := s1.err hh; rw [hn n] at h; exact hh h.symm
  have e2 : r2.2 = 0 := by
    by_contra hh; obtain ⟨n, _, h⟩ := s2.err hh; rw [hn n] at h; exact hh h.symm
  have e3 : c.2 = 0 := by
    by_contra hh; obtain ⟨n, _, h⟩ := s3.err hh; rw [hn n] at h; exact hh h.symm
  refine ⟨e1, e2, e3, ?_⟩
  change Sends o v cur (Sock.new, false) _ r1.1 r1.2 d1 at s1
  change Sends o v cur r1.1 _ r2.1 r2.2 d2 at s2
  change Sends o v cur r2.1 _ c.1 c.2 [] at s3
  rw [e1] at s1
  rw [e2] at s2
  rw [e3] at s3
  have hb : c.1.2 = true := hb3 e3
  have s := (s1.trans s2).trans s3
  have h := s.sent
  rw [s.all rfl] at h
  simp only [Sock.new, hb, and_self, if_true, List.nil_append, List.append_nil] at h
  simpa using h

theorem dataCalls_meaning (v : BitVec 8) (session : BitVec 16) (vrps : List (Ev Vrp)) (keys : List (Ev RouterKey))
    (n : Serial) (tm : Timers) :
    (dataCalls v session vrps keys n tm).map SendCall.meaning = dataResponse v session vrps keys n tm := by
  unfold dataCalls dataResponse
  rw [List.map_append, List.map_append, List.map_append, rkCalls_meaning, List.map_map]
  congr 1
  congr 1
  congr 1
  exact List.map_congr_left (fun e _ => vrpCall_meaning v e)

theorem serial_query_sent (o : Nat → Int) (hn : NoFailure o) (st : State) (tm : Timers) (v : BitVec 8)
    (serial : Serial) (raw : List Byte) (l : Lists) (to_ : Serial) (hd : st.deltaSince serial = .send l to_) :
    ∃ r, handleSerialQuery o st tm v (st.sessionId v) serial raw Sock.new = some r ∧ r.2 = 0 ∧
      r.1.sent = dataCalls v (st.sessionId v) l.vrps l.rks to_ tm := by
  unfold handleSerialQuery
  simp only [hd, ne_eq, not_true_eq_false, if_false]
  rw [loopVrp_eq]
  simp only [loopRk_eq]
  obtain ⟨_, _, e3, hs⟩ := noFail_loops o hn v (st.sessionId v) (l.vrps.map (fun e => some (vrpCall v e)))
    (l.rks.map (rkCall v))
  rw [if_neg (by simp [e3])]
  refine ⟨_, rfl, ?_⟩
  unfold sendResponse
  rw [if_pos (hn _)]
  refine ⟨rfl, ?_⟩
  simp only [hs, flatMap_some_toList]
  rfl

theorem reset_query_sent (o : Nat → Int) (hn : NoFailure o) (st1 st2 : State) (tm : Timers) (v : BitVec 8)
    (serial : Serial) (base : Table) (h1 : st1.lastSerial = some serial) (h2 : st2.base = some base) :
    (handleResetQuery o st1 st2 tm v Sock.new).2 = 0 ∧
    (handleResetQuery o st1 st2 tm v Sock.new).1.sent = dataCalls v (st2.sessionId v)
      (base.roas.map (⟨.announcement, ·⟩)) (base.keys.map (⟨.announcement, ·⟩)) serial tm := by
  unfold handleResetQuery
  simp only [h1, h2]
  rw [loopVrp_eq]
  simp only [loopRk_eq]
  obtain ⟨e1, e2, e3, hs⟩ := noFail_loops o hn v (st2.sessionId v)
    ((base.roas.map (fun x => (⟨.announcement, x⟩ : Ev Vrp))).map (fun e => some (vrpCall v e)))
    ((base.keys.map (fun x => (⟨.announcement, x⟩ : Ev RouterKey))).map (rkCall v))
  simp only [e1, ne_eq, not_true_eq_false, if_false]
  rw [if_pos e2, if_neg (by rw [e3]; simp)]
  unfold sendResponse
  rw [if_pos (hn _)]
  refine ⟨rfl, ?_⟩
  simp only [hs, flatMap_some_toList]
  rfl

/-- All router keys of all results have the sizes of the C struct. -/
def ResultsSized (rs : List (Option Table)) : Prop := ∀ t, some t ∈ rs → t.KeysSized

theorem publish_sub (snaps : List Table) (r : Option Table) :
    ∀ t ∈ publish snaps r, t ∈ snaps ∨ r = some t := by
  intro t ht
  unfold publish at ht
  cases r with
  | none => exact Or.inl ht
  | some x =>
    simp only at ht
    cases hl : snaps.getLast? with
    | none => rw [hl] at ht; simp at ht; exact Or.inr (by rw [ht])
    | some y =>
      rw [hl] at ht
      simp only at ht
      split at ht
      · exact Or.inl ht
      · simp at ht
        rcases ht with h | h
        · exact Or.inl h
        · exact Or.inr (by rw [h])

theorem snapshots_sub (rs : List (Option Table)) : ∀ t ∈ snapshots rs, some t ∈ rs := by
  suffices h : ∀ (rs : List (Option Table)) (acc : List Table) (t : Table),
      t ∈ rs.foldl publish acc → t ∈ acc ∨ some t ∈ rs by
    intro t ht
    rcases h rs [] t ht with h | h
    · simp at h
    · exact h
  intro rs
  induction rs with
  | nil => exact fun _ _ h => Or.inl h
  | cons r rs ih =>
    intro acc t ht
    rcases ih _ t ht with h | h
    · rcases publish_sub acc r t h with h | h
      · exact Or.inl h
      · exact Or.inr (by rw [h]; exact List.mem_cons_self)
    · exact Or.inr (List.mem_cons_of_mem _ h)

theorem net_mem {α : Type} [DecidableEq α] {S T : Finset α} {es : List (Ev α)} (h : Net S T es) (e : Ev α)
    (he : e ∈ es) : e.item ∈ S ∨ e.item ∈ T := by
  obtain ⟨f, x⟩ := e
  cases f with
  | announcement => exact Or.inr ((h.ann x).1 he).2
  | withdrawal => exact Or.inl ((h.wd x).1 he).1

/-- A router which has no data. -/
def emptyClient : Client := ⟨∅, ∅, none, false⟩

/-- A router synchronized with a data set, at a serial. A version 0 router has no router keys. -/
def synced (v : BitVec 8) (t : Table) (n : Nat) : Client :=
  ⟨vrpRecs t, if v = 0 then ∅ else keyRecs t, some n, false⟩

/-- C66, Reset Query: after any validation cycles (at least one publication), an empty router of version 0 or 1
which asks for a reset, decodes the bytes it receives and processes the PDUs strictly, ends with exactly the data
of the newest publication and its serial. No send fails, and no update lands in the middle (see C09, C10). -/
theorem C66_reset_end_to_end_partial (o : Nat → Int) (hn : NoFailure o) (cap : Nat) (h1 : 1 ≤ cap) (h2 : cap < 2 ^ 31)
    (now : BitVec 64) (rs : List (Option Table)) (hrs : ResultsWF rs) (hsz : ResultsSized rs)
    (hne : snapshots rs ≠ []) (tm : Timers) (v : BitVec 8) (hv : v = 0 ∨ v = 1) :
    ∃ st, (State.init cap now).updates rs = some st ∧ ∃ cur, (snapshots rs).getLast? = some cur ∧
      let sent := (handleResetQuery o st st tm v Sock.new).1.sent
      (decodeStream sent.length (sent.flatMap SendCall.bytes)).bind emptyClient.run =
        some (synced v cur (BitVec.ofNat 32 (snapshots rs).length).toNat) := by
  obtain ⟨st, hst, hinv⟩ := (State.inv_init h1 h2 now).updates hrs
  change st.Inv cap (snapshots rs) at hinv
  have hsub := snapshots_sub rs
  generalize snapshots rs = snaps at *
  refine ⟨st, hst, snaps.getLast hne, List.getLast?_eq_some_getLast hne, ?_⟩
  have hb : st.base = some (snaps.getLast hne) := by rw [hinv.base, List.getLast?_eq_some_getLast hne]
  have hl : st.lastSerial = some st.serial := by unfold State.lastSerial; rw [hb]
  have hw := hinv.wf (snaps.getLast hne) (List.getLast_mem hne)
  have hz := hsz _ (hsub _ (List.getLast_mem hne))
  generalize snaps.getLast hne = cur at *
  simp only
  rw [(reset_query_sent o hn st st tm v st.serial cur hl hb).2]
  rw [C13_stream _ (sent_wf_of_meaning v hv _ _ _ _ tm
    (by intro e he; obtain ⟨x, hx, rfl⟩ := List.mem_map.1 he; exact hw.vrpsWF x hx)
    (by intro e he; obtain ⟨x, hx, rfl⟩ := List.mem_map.1 he; exact hz x hx)), dataCalls_meaning, Option.bind_some]
  have r1 : Router.run ∅ (cur.roas.map (⟨.announcement, ·⟩)) = some cur.vrpSet := by
    rw [run_announce _ _ hw.roasNodup (by simp)]; simp [Table.vrpSet]
  have r2 : Router.run ∅ (cur.keys.map (⟨.announcement, ·⟩)) = some cur.keySet := by
    rw [run_announce _ _ hw.keysNodup (by simp)]; simp [Table.keySet]
  have := client_dataResponse v hv (st.sessionId v) _ _ st.serial tm ∅ _ ∅ _ r1 r2 none
  simp only [Finset.image_empty] at this
  rw [emptyClient, this, hinv.serial, synced]
  rcases hv with rfl | rfl <;> rfl

/-- C66, Serial Query: a router which holds publication `j` with its serial `j + 1` and asks for what changed,
decodes the bytes it receives and processes the PDUs strictly, ends with exactly the data of the newest
publication and its serial - or is told by a Cache Reset to start over, which does not happen when the serial is
at most `cap` publications old. No send fails (see C09). -/
theorem C66_serial_end_to_end_partial (o : Nat → Int) (hn : NoFailure o) (cap : Nat) (h1 : 1 ≤ cap) (h2 : cap < 2 ^ 31)
    (now : BitVec 64) (rs : List (Option Table)) (hrs : ResultsWF rs) (hsz : ResultsSized rs)
    (j : Nat) (old : Table) (hj : (snapshots rs)[j]? = some old) (hdist : (snapshots rs).length - 1 - j < 2 ^ 32)
    (raw : List Byte) (tm : Timers) (v : BitVec 8) (hv : v = 0 ∨ v = 1) :
    ∃ st, (State.init cap now).updates rs = some st ∧ ∃ cur, (snapshots rs).getLast? = some cur ∧
    ∃ r, handleSerialQuery o st tm v (st.sessionId v) (BitVec.ofNat 32 (j + 1)) raw Sock.new = some r ∧
      let got := decodeStream r.1.sent.length (r.1.sent.flatMap SendCall.bytes)
      (got.bind (synced v old (BitVec.ofNat 32 (j + 1)).toNat).run =
          some (synced v cur (BitVec.ofNat 32 (snapshots rs).length).toNat)) ∨
      (got = some [⟨v.toNat, .cacheReset⟩] ∧ cap < (snapshots rs).length - 1 - j) := by
  obtain ⟨st, hst, hinv, cur, hcur, h⟩ := sync_net cap h1 h2 now rs hrs j old hj hdist
  have hold : old ∈ snapshots rs := List.mem_of_getElem? hj
  have hnew : cur ∈ snapshots rs := List.mem_of_getLast? hcur
  refine ⟨st, hst, cur, hcur, ?_⟩
  cases hd : st.deltaSince (BitVec.ofNat 32 (j + 1)) with
  | ub => rw [hd] at h; exact h.elim
  | noData => rw [hd] at h; exact h.elim
  | cacheReset =>
    rw [hd] at h
    refine ⟨sendResponse o Sock.new (.cacheReset v), ?_, Or.inr ⟨?_, h⟩⟩
    · unfold handleSerialQuery; simp [hd]
    · have : (sendResponse o Sock.new (.cacheReset v)).1.sent = [.cacheReset v] := by
        simp [sendResponse, hn _, Sock.new]
      rw [this]
      exact C13_stream [.cacheReset v] (by intro c hc; rw [List.mem_singleton] at hc; subst hc; exact hv)
  | send l to_ =>
    rw [hd] at h
    obtain ⟨n1, n2, rfl⟩ := h
    obtain ⟨r, hr, _, hsent⟩ := serial_query_sent o hn st tm v _ raw l _ hd
    refine ⟨r, hr, Or.inl ?_⟩
    rw [hsent]
    rw [C13_stream _ (sent_wf_of_meaning v hv _ _ _ _ tm ?_ ?_), dataCalls_meaning, Option.bind_some]
    · have hpre : synced v old (BitVec.ofNat 32 (j + 1)).toNat =
          ⟨old.vrpSet.image recOf, (if v = 0 then ∅ else old.keySet).image keyOf,
            some (BitVec.ofNat 32 (j + 1)).toNat, false⟩ := by
        rcases hv with rfl | rfl <;> rfl
      rw [hpre]
      rcases hv with rfl | rfl
      · have := client_dataResponse 0 (Or.inl rfl) (st.sessionId 0) l.vrps [] (BitVec.ofNat 32 (snapshots rs).length) tm
          old.vrpSet _ ∅ ∅ n1.run rfl (some (BitVec.ofNat 32 (j + 1)).toNat)
        exact this
      · have := client_dataResponse 1 (Or.inr rfl) (st.sessionId 1) l.vrps l.rks (BitVec.ofNat 32 (snapshots rs).length) tm
          old.vrpSet _ old.keySet _ n1.run n2.run (some (BitVec.ofNat 32 (j + 1)).toNat)
        exact this
    · intro e he
      rcases net_mem n1 e he with h | h
      · exact (hinv.wf old hold).vrpsWF _ (by simpa [Table.vrpSet] using h)
      · exact (hinv.wf cur hnew).vrpsWF _ (by simpa [Table.vrpSet] using h)
    · intro e he
      rcases net_mem n2 e he with h | h
      · exact hsz _ (snapshots_sub rs _ hold) _ (by simpa [Table.keySet] using h)
      · exact hsz _ (snapshots_sub rs _ hnew) _ (by simpa [Table.keySet] using h)

/-- The hypotheses are met by a history with router keys and both families; the end states differ. -/
def exKey : RouterKey := ⟨List.replicate 20 7, 64500, List.replicate 91 9⟩

example :
    let rs : List (Option Table) := [some ⟨[exV1], []⟩, none, some ⟨[exV2], [exKey]⟩]
    ResultsWF rs ∧ ResultsSized rs ∧ (snapshots rs)[0]? = some ⟨[exV1], []⟩ ∧ (snapshots rs).length = 2 := by
  refine ⟨?_, ?_, by decide, by decide⟩
  · intro t ht
    simp only [List.mem_cons, Option.some.injEq, List.not_mem_nil, or_false, reduceCtorEq, false_or] at ht
    rcases ht with rfl | rfl <;> refine ⟨by decide, by decide, ?_⟩ <;>
      intro v hv <;> simp [exV1, exV2, Vrp.WF] at hv ⊢ <;> subst hv <;> simp
  · intro t ht k hk
    simp only [List.mem_cons, Option.some.injEq, List.not_mem_nil, or_false, reduceCtorEq, false_or] at ht
    rcases ht with rfl | rfl <;> simp at hk
    subst hk
    decide

end Verif.Rtr
