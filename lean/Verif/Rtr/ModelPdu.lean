/-
Model of the RTR PDU sender and of the query handlers.
Files modelled: src/rtr/primitive_writer.c, src/rtr/pdu_sender.c, src/rtr/err_pdu.c, src/rtr/pdu_handler.c.
-/
import Verif.Rtr.Model

namespace Verif.Rtr

/-! ### Errno values used by the handlers (Linux) -/

/-- EAGAIN. -/
def EAGAIN : Int := 11
/-- EINVAL. -/
def EINVAL : Int := 22

/-! ### Writers. A write returns the bytes it stores; advancing `buf` is list concatenation. -/

/-- src/rtr/primitive_writer.c:3-8 `write_uint8`. -/
def writeU8 (v : BitVec 8) : List Byte := [v]
/-- src/rtr/primitive_writer.c:11-17 `write_uint16`. -/
def writeU16 (v : BitVec 16) : List Byte := [(v >>> 8).setWidth 8, v.setWidth 8]
/-- src/rtr/primitive_writer.c:20-28 `write_uint32`. -/
def writeU32 (v : BitVec 32) : List Byte :=
  [(v >>> 24).setWidth 8, (v >>> 16).setWidth 8, (v >>> 8).setWidth 8, v.setWidth 8]
/-- src/rtr/primitive_writer.c:30-34 `write_in_addr`; the address is held as its host-order value. -/
def writeIn4 (v : BitVec 128) : List Byte := writeU32 (v.setWidth 32)
/-- src/rtr/primitive_writer.c:36-43 `write_in6_addr`: `s6_addr[i]` is byte `i` from the most significant end. -/
def writeIn6 (v : BitVec 128) : List Byte :=
  (List.range 16).flatMap (fun i => writeU8 ((v >>> (8 * (15 - i))).setWidth 8))

/-- src/rtr/pdu_sender.c:12-21 `serialize_hdr`. -/
def serializeHdr (version type : BitVec 8) (m : BitVec 16) (length : BitVec 32) : List Byte :=
  writeU8 version ++ writeU8 type ++ writeU16 m ++ writeU32 length

/-- Flag byte (src/types/delta.h:7-8). -/
def Flag.byte : Flag → BitVec 8
  | .withdrawal => 0
  | .announcement => 1

/-- A call of one of the `send_*_pdu` functions, with the values it reads from the configuration and state. -/
inductive SendCall
  | serialNotify (version : BitVec 8) (session : BitVec 16) (serial : Serial)
  | cacheReset (version : BitVec 8)
  | cacheResponse (version : BitVec 8) (session : BitVec 16)
  | prefix4 (version : BitVec 8) (vrp : Vrp) (flags : Flag)
  | prefix6 (version : BitVec 8) (vrp : Vrp) (flags : Flag)
  | routerKey (version : BitVec 8) (key : RouterKey) (flags : Flag)
  | endOfData (version : BitVec 8) (session : BitVec 16) (serial : Serial) (refresh retry expire : BitVec 32)
  | errorReport (version : BitVec 8) (code : BitVec 16) (request : Option (List Byte))
      (message : Option (List Byte))
  deriving DecidableEq, Repr

/-- src/rtr/pdu_sender.c:227-242 `compute_error_pdu_len`. -/
def computeErrorPduLen (request : Option (List Byte)) : Nat :=
  match request with
  | none => 0
  | some bytes =>
    if bytes.length < 8 then 0
    else
      match bytes[4]?, bytes[5]?, bytes[6]?, bytes[7]? with
      | some b4, some b5, some b6, some b7 =>
        let result : BitVec 32 := (b4.setWidth 32 <<< 24) ||| (b5.setWidth 32 <<< 16) |||
          (b6.setWidth 32 <<< 8) ||| b7.setWidth 32
        let r := if result.toNat ≤ bytes.length then result.toNat else bytes.length
        if r ≤ 123 then r else 123
      | _, _, _, _ => 0

/-- The bytes handed to `send_response` by each sender:
src/rtr/pdu_sender.c:85-98 `send_serial_notify_pdu`,
src/rtr/pdu_sender.c:100-110 `send_cache_reset_pdu`,
src/rtr/pdu_sender.c:112-122 `send_cache_response_pdu`,
src/rtr/pdu_sender.c:124-142 `send_ipv4_prefix_pdu`,
src/rtr/pdu_sender.c:144-162 `send_ipv6_prefix_pdu`,
src/rtr/pdu_sender.c:177-197 `send_router_key_pdu` (after the version test),
src/rtr/pdu_sender.c:201-225 `send_end_of_data_pdu`,
src/rtr/pdu_sender.c:244-275 `send_error_report_pdu`.
The stack arrays have exactly the length passed to `send_response`; `bytes_length` shows that exactly that many bytes
are written into them. -/
def SendCall.bytes : SendCall → List Byte
  | .serialNotify v session serial => serializeHdr v 0 session 12 ++ writeU32 serial
  | .cacheReset v => serializeHdr v 8 0 8
  | .cacheResponse v session => serializeHdr v 3 session 8
  | .prefix4 v vrp f =>
    serializeHdr v 4 0 20 ++ writeU8 f.byte ++ writeU8 vrp.len ++ writeU8 vrp.maxLen ++ writeU8 0 ++
      writeIn4 vrp.prefix_ ++ writeU32 vrp.asn
  | .prefix6 v vrp f =>
    serializeHdr v 6 0 32 ++ writeU8 f.byte ++ writeU8 vrp.len ++ writeU8 vrp.maxLen ++ writeU8 0 ++
      writeIn6 vrp.prefix_ ++ writeU32 vrp.asn
  | .routerKey v key f =>
    serializeHdr v 9 (f.byte.setWidth 16 <<< 8) 123 ++ key.ski ++ writeU32 key.as ++ key.spk
  | .endOfData v session serial refresh retry expire =>
    let len : BitVec 32 := if v = 1 then 24 else 12
    serializeHdr v 7 session len ++ writeU32 serial ++
      (if v = 1 then writeU32 refresh ++ writeU32 retry ++ writeU32 expire else [])
  | .errorReport v code request message =>
    let epl := computeErrorPduLen request
    let msg := message.getD []
    let eml := msg.length
    let len : BitVec 32 := 8 + 4 + BitVec.ofNat 32 epl + 4 + BitVec.ofNat 32 eml
    serializeHdr v 10 code len ++ writeU32 (BitVec.ofNat 32 epl) ++ (request.getD []).take epl ++
      writeU32 (BitVec.ofNat 32 eml) ++ msg

/-! ### send_response -/

/-- One `poll` of src/rtr/pdu_sender.c:64-73: its return value and whether `revents` has an error flag
(POLLHUP, POLLERR, POLLNVAL) and POLLOUT. -/
structure PollRes where
  ret : Int
  bad : Bool
  out : Bool

/-- src/rtr/pdu_sender.c:51-83 `send_response`. `polls` are the successive poll results, `write` the result of
`write(2)`: an error number, or a number of bytes taken. Returns the bytes put on the wire and the return value;
`none` when the poll results run out (the code would still be waiting). -/
def sendResponseRaw : List PollRes → (Int ⊕ Nat) → List Byte → Option (List Byte × Int)
  | [], _, _ => none
  | p :: ps, write, data =>
    if p.ret < 0 then some ([], -EINVAL)
    else if p.ret = 0 then some ([], -EINVAL)
    else if p.bad then some ([], -EINVAL)
    else if !p.out then sendResponseRaw ps write data
    else match write with
      | .inl errno => some ([], errno)
      | .inr n => some (data.take n, 0)

/-- The connection: how many sends were attempted, and the successful ones in order. -/
structure Sock where
  attempts : Nat
  sent : List SendCall
  deriving DecidableEq, Repr

/-- Fresh connection state. -/
def Sock.new : Sock := ⟨0, []⟩

/-- `send_response` seen by the handlers: the oracle `o` gives the return value of the n-th send. A send that
returns nonzero put nothing on the wire. (Short writes, which the code takes for success, are in
`sendResponseRaw`, see C65.) -/
def sendResponse (o : Nat → Int) (k : Sock) (c : SendCall) : Sock × Int :=
  if o k.attempts = 0 then (⟨k.attempts + 1, k.sent ++ [c]⟩, 0)
  else (⟨k.attempts + 1, k.sent⟩, o k.attempts)

/-- The return values `send_response` can have: 0, -EINVAL, or a positive errno. -/
def ValidOracle (o : Nat → Int) : Prop := ∀ n, o n = 0 ∨ o n = -EINVAL ∨ 0 < o n

/-- src/rtr/pdu_sender.c:164-175 `send_prefix_pdu`. -/
def sendPrefix (o : Nat → Int) (k : Sock) (v : BitVec 8) (vrp : Vrp) (f : Flag) : Sock × Int :=
  match vrp.fam with
  | .v4 => sendResponse o k (.prefix4 v vrp f)
  | .v6 => sendResponse o k (.prefix6 v vrp f)

/-- src/rtr/pdu_sender.c:177-197 `send_router_key_pdu`. -/
def sendRouterKey (o : Nat → Int) (k : Sock) (v : BitVec 8) (key : RouterKey) (f : Flag) : Sock × Int :=
  if v = 0 then (k, 0) else sendResponse o k (.routerKey v key f)

/-- src/rtr/err_pdu.c:20-34 `err_pdu_send`. `none`: `request->bytes[1]` is outside the buffer. -/
def errPduSend (o : Nat → Int) (k : Sock) (v : BitVec 8) (code : BitVec 16) (request : Option (List Byte))
    (msg : Option (List Byte)) : Option (Sock × Int) :=
  match request with
  | none => some ((sendResponse o k (.errorReport v code none msg)).1, -EINVAL)
  | some r =>
    match r[1]? with
    | none => none
    | some b => if b ≠ 10 then some ((sendResponse o k (.errorReport v code (some r) msg)).1, -EINVAL)
                else some (k, -EINVAL)

/-- src/rtr/err_pdu.c:48-52 `err_pdu_send_internal_error`. -/
def errInternal (o : Nat → Int) (k : Sock) (v : BitVec 8) : Sock × Int :=
  ((sendResponse o k (.errorReport v 1 none none)).1, -EINVAL)

/-- src/rtr/err_pdu.c:54-63 `err_pdu_send_no_data_available`. -/
def errNoData (o : Nat → Int) (k : Sock) (v : BitVec 8) : Sock × Int :=
  ((sendResponse o k (.errorReport v 2 none none)).1, 0)

/-! ### Query handlers -/

/-- Loops that run a callback and stop at its first error: src/rtr/db/db_table.c:123-136 `db_table_foreach_roa`,
src/rtr/db/db_table.c:138-152 `db_table_foreach_router_key`, and the two SLIST_FOREACH of
src/rtr/db/vrps.c:388-474 `vrps_foreach_delta_since`. -/
def foreachCb {α σ : Type} (cb : σ → α → σ × Int) : List α → σ → σ × Int
  | [], s => (s, 0)
  | x :: xs, s => if (cb s x).2 ≠ 0 then cb s x else foreachCb cb xs (cb s x).1

/-- src/rtr/pdu_handler.c:16-29 `send_cache_response_maybe`, also inlined in
src/rtr/pdu_handler.c:137-151 `send_base_roa` and src/rtr/pdu_handler.c:153-168 `send_base_router_key`.
The Bool is `cache_response_sent` (`started`). -/
def cacheResponseMaybe (o : Nat → Int) (v : BitVec 8) (session : BitVec 16) (s : Sock × Bool) :
    (Sock × Bool) × Int :=
  if s.2 then (s, 0)
  else
    let r := sendResponse o s.1 (.cacheResponse v session)
    if r.2 ≠ 0 then ((r.1, false), r.2) else ((r.1, true), 0)

/-- src/rtr/pdu_handler.c:31-43 `send_delta_vrp`; src/rtr/pdu_handler.c:137-151 `send_base_roa` is the same with
the announcement flag. -/
def sendDeltaVrp (o : Nat → Int) (v : BitVec 8) (session : BitVec 16) (s : Sock × Bool) (d : Ev Vrp) :
    (Sock × Bool) × Int :=
  let c := cacheResponseMaybe o v session s
  if c.2 ≠ 0 then c
  else
    let r := sendPrefix o c.1.1 v d.item d.flag
    ((r.1, c.1.2), r.2)

/-- src/rtr/pdu_handler.c:45-57 `send_delta_rk`; src/rtr/pdu_handler.c:153-168 `send_base_router_key` is the same
with the announcement flag. -/
def sendDeltaRk (o : Nat → Int) (v : BitVec 8) (session : BitVec 16) (s : Sock × Bool) (d : Ev RouterKey) :
    (Sock × Bool) × Int :=
  let c := cacheResponseMaybe o v session s
  if c.2 ≠ 0 then c
  else
    let r := sendRouterKey o c.1.1 v d.item d.flag
    ((r.1, c.1.2), r.2)

/-- The intervals of the configuration (src/config.c:1210-1214 `config_get_interval_refresh`). -/
structure Timers where
  refresh : BitVec 32
  retry : BitVec 32
  expire : BitVec 32

/-- "Session ID doesn't match." -/
def sessionMsg : List Byte := "Session ID doesn't match.".toUTF8.toList.map (fun b => b.toBitVec)

/-- src/rtr/pdu_handler.c:59-129 `handle_serial_query_pdu`. `raw` is `request->pdu.raw`. The database is read in
one read-locked region, which also covers the callbacks. `none` is undefined behaviour. -/
def handleSerialQuery (o : Nat → Int) (st : State) (tm : Timers) (v : BitVec 8) (session : BitVec 16)
    (serial : Serial) (raw : List Byte) (k : Sock) : Option (Sock × Int) :=
  let cur := st.sessionId v
  if session ≠ cur then errPduSend o k v 0 (some raw) (some sessionMsg)
  else
    match st.deltaSince serial with
    | .ub => none
    | .noData => some (errNoData o k v)
    | .cacheReset => some (sendResponse o k (.cacheReset v))
    | .send l to_ =>
      -- an error of the first loop does not stop the second one, and is forgotten
      let r1 := foreachCb (sendDeltaVrp o v cur) l.vrps (k, false)
      let r2 := foreachCb (sendDeltaRk o v cur) l.rks r1.1
      let c := cacheResponseMaybe o v cur r2.1
      if c.2 ≠ 0 then some (c.1.1, c.2)
      else some (sendResponse o c.1.1 (.endOfData v cur to_ tm.refresh tm.retry tm.expire))

/-- src/rtr/pdu_handler.c:170-222 `handle_reset_query_pdu`. The serial is read from `st1` in one locked region and
the data from `st2` in a later one: updates may happen in between. -/
def handleResetQuery (o : Nat → Int) (st1 st2 : State) (tm : Timers) (v : BitVec 8) (k : Sock) : Sock × Int :=
  match st1.lastSerial with
  | none => errNoData o k v
  | some serial =>
    match st2.base with
    | none => errNoData o k v
    | some base =>
      let cur := st2.sessionId v
      let r1 := foreachCb (sendDeltaVrp o v cur) (base.roas.map (⟨.announcement, ·⟩)) (k, false)
      let r2 := if r1.2 ≠ 0 then r1
        else foreachCb (sendDeltaRk o v cur) (base.keys.map (⟨.announcement, ·⟩)) r1.1
      if r2.2 = 0 then
        let c := cacheResponseMaybe o v cur r2.1
        if c.2 ≠ 0 then (c.1.1, c.2)
        else sendResponse o c.1.1 (.endOfData v cur serial tm.refresh tm.retry tm.expire)
      else if r2.2 = -EAGAIN then errNoData o r2.1.1 v
      else if r2.2 = EAGAIN then ((errInternal o r2.1.1 v).1, r2.2)
      else (r2.1.1, r2.2)

end Verif.Rtr
