/-
Model of the RTR request parser.
File modelled: src/rtr/pdu_stream.c.
-/
import Verif.Rtr.ModelPdu

namespace Verif.Rtr

/-! ### UTF-8 cut -/

/-- src/rtr/pdu_stream.c:148-160 `get_octets`; `none` is EINVALID_UTF8. -/
def getOctets (b : Byte) : Option Nat :=
  if b &&& 0x80 = 0 then some 1
  else if b >>> 5 = 6 then some 2
  else if b >>> 4 = 14 then some 3
  else if b >>> 3 = 30 then some 4
  else none

/-- The inner `for` of src/rtr/pdu_stream.c:170-210 `place_null_character`: `n` continuation octets. `none` is
`goto end`. -/
def skipContinuation : Nat → List Byte → Option (List Byte)
  | 0, bs => some bs
  | _ + 1, [] => none
  | n + 1, b :: bs => if b >>> 6 = 2 then skipContinuation n bs else none

theorem skipContinuation_length {n : Nat} {bs r : List Byte} (h : skipContinuation n bs = some r) :
    r.length ≤ bs.length := by
  induction n generalizing bs with
  | zero => simp [skipContinuation] at h; rw [h]; exact Nat.le_refl _
  | succ n ih =>
    cases bs with
    | nil => simp [skipContinuation] at h
    | cons b bs =>
      simp only [skipContinuation] at h
      split at h
      · have := ih h; simp; omega
      · cases h

/-- src/rtr/pdu_stream.c:170-210 `place_null_character`: the position at which the terminator is written. `rest`
are the bytes from `cursor` to the end of the string, `pos` is `null_chara_pos - str` (= `cursor - str` at the
loop head). -/
def placeNull (rest : List Byte) (pos : Nat) : Nat :=
  match rest with
  | [] => pos
  | b :: bs =>
    match getOctets b with
    | none => pos
    | some n =>
      match h : skipContinuation (n - 1) bs with
      | none => pos
      | some r => placeNull r (pos + n)
  termination_by rest.length
  decreasing_by have := skipContinuation_length h; simp; omega

/-! ### The stream -/

/-- `struct pdu_stream`: `rtr_version` (`none` is -1), the offset of `start` in the buffer, and the active bytes
`[start, end)`. The buffer has RTRPDU_MAX_LEN2 = 1024 bytes. -/
structure Stream where
  ver : Option (BitVec 8)
  off : Nat
  buf : List Byte
  deriving DecidableEq, Repr

/-- src/rtr/pdu_stream.c:43-55 `pdustream_create`. -/
def Stream.new : Stream := ⟨none, 0, []⟩

/-- What the next `read` on the socket finds: bytes (none at all: the peer has closed), nothing for now, or an
error. A `read` of fewer bytes than there are leaves the rest for the next one. -/
inductive SockEv
  | data (bs : List Byte)
  | block
  | error
  deriving DecidableEq, Repr

/-- `enum buffer_state` (src/rtr/pdu_stream.c:9-18). -/
inductive BufState | wouldBlock | eos | keepReading | error
  deriving DecidableEq, Repr

/-- The `for` loop of src/rtr/pdu_stream.c:82-124 `update_buffer`: the buffer, what is left on the socket, and
the verdict. No event left is the same as `block`. -/
def readLoop : List SockEv → List Byte → List Byte × List SockEv × BufState
  | es, buf =>
    if 1024 ≤ buf.length then (buf, es, .keepReading)
    else match es with
      | [] => (buf, [], .wouldBlock)
      | .block :: es => (buf, es, .wouldBlock)
      | .error :: es => (buf, es, .error)
      | .data bs :: es =>
        if bs.length = 0 then (buf, es, .eos)
        else if bs.length ≤ 1024 - buf.length then readLoop es (buf ++ bs)
        else (buf ++ bs.take (1024 - buf.length), .data (bs.drop (1024 - buf.length)) :: es, .keepReading)

/-- src/rtr/pdu_stream.c:82-124 `update_buffer`: leftover bytes are moved to the beginning, then the loop. -/
def updateBuffer (s : Stream) (es : List SockEv) : Stream × List SockEv × BufState :=
  let r := readLoop es s.buf
  (⟨s.ver, 0, r.1⟩, r.2)

/-- src/rtr/pdu_stream.c:126-131 `read_uint16`, on bytes that exist. -/
def readU16 (b : List Byte) : BitVec 16 :=
  match b with
  | b0 :: b1 :: _ => (b0.setWidth 16 <<< 8) ||| b1.setWidth 16
  | _ => 0

/-- src/rtr/pdu_stream.c:133-140 `read_uint32`, on bytes that exist. -/
def readU32 (b : List Byte) : BitVec 32 :=
  match b with
  | b0 :: b1 :: b2 :: b3 :: _ =>
    (b0.setWidth 32 <<< 24) ||| (b1.setWidth 32 <<< 16) ||| (b2.setWidth 32 <<< 8) ||| b3.setWidth 32
  | _ => 0

/-- `struct pdu_header` (src/rtr/pdu_stream.c:32-41). -/
structure PduHdr where
  version : BitVec 8
  type : BitVec 8
  m : BitVec 16
  len : BitVec 32
  deriving DecidableEq, Repr

/-- src/rtr/pdu_stream.c:227-234 `read_hdr`; the caller has checked that there are 8 bytes. -/
def readHdr (b : List Byte) : PduHdr :=
  ⟨b.headD 0, (b.drop 1).headD 0, readU16 (b.drop 2), readU32 (b.drop 4)⟩

/-- A parsed query. -/
inductive Query
  | serial (session : BitVec 16) (serial : BitVec 32)
  | reset
  deriving DecidableEq, Repr

/-- `struct rtr_request` as far as the handlers use it (src/rtr/pdu_stream.h:12-27). -/
structure Request where
  version : BitVec 8
  query : Query
  raw : List Byte
  eos : Bool
  deriving DecidableEq, Repr

/-- A failed validation: the Error Report handed to the sender (if any), or undefined behaviour. -/
inductive ErrOut
  | none
  | report (c : SendCall)
  | ub
  deriving DecidableEq, Repr

/-- src/rtr/err_pdu.c:20-34 `err_pdu_send` with a request: the report, if any; `ub` when `request->bytes[1]` does
not exist. The result of the send is ignored by the C code. -/
def errOut (version : BitVec 8) (code : BitVec 16) (raw : List Byte) (msg : Option (List Byte)) : ErrOut :=
  match raw[1]? with
  | .none => .ub
  | some b => if b ≠ 10 then .report (.errorReport version code (some raw) msg) else .none

/-- C string literals as bytes. -/
def strBytes (s : String) : List Byte := s.toUTF8.toList.map (fun b => b.toBitVec)

/-- src/rtr/pdu_stream.c:236-287 `validate_rtr_version`: the new version of the stream, or an error. The version
of the stream is only ever 0 or 1 (C16), so the `pr_crit` is not reached: it is modelled as undefined
behaviour. -/
def validateVersion (ver : Option (BitVec 8)) (hv : BitVec 8) (raw : List Byte) : Except ErrOut (BitVec 8) :=
  let unsupported := Except.error (errOut (ver.getD 1) 4 raw
    (some (strBytes "The maximum supported RTR version is 1.")))
  let unexpected (v : BitVec 8) := Except.error (errOut v 8 raw
    (some (strBytes "The RTR version does not match the one we negotiated during the handshake.")))
  match ver with
  | .none => if hv = 0 ∨ hv = 1 then .ok hv else unsupported
  | some v =>
    if v = 1 then if hv = 0 then unexpected v else if hv = 1 then .ok 1 else unsupported
    else if v = 0 then if hv = 0 then .ok 0 else if hv = 1 then unexpected v else unsupported
    else .error .ub

/-- One iteration of the parsing loop. -/
inductive Step
  | frag (ver : Option (BitVec 8))                       -- PDU incomplete: leave it, wait for more
  | fail (ver : Option (BitVec 8)) (e : ErrOut)          -- end of the session
  | text (ver : Option (BitVec 8)) (text : List Byte)    -- Error Report received and logged: end of the session
  | pdu (s : Stream) (r : Request)                       -- a query
  | stale                                                -- reads buffer bytes that were not received
  | ub                                                   -- reads outside of an allocated object
  deriving DecidableEq, Repr

/-- src/rtr/pdu_stream.c:360-457 `load_error_report`, after the header length checks of the caller. `b` are the
active bytes, `off` is their offset in the buffer of 1024 bytes. Reading the error text past the received bytes is
`stale`, past the buffer `ub`. -/
def loadErrorReport (ver : BitVec 8) (hdr : PduHdr) (off : Nat) (b : List Byte) : Step :=
  if hdr.len.toNat > 1024 then .fail (some ver) .none
  else if hdr.len.toNat < 16 then .fail (some ver) .none
  else
    let b1 := b.drop 8
    if b1.length < 4 then .frag (some ver)
    else
      let errpduLen := (readU32 b1).toNat
      let b2 := b1.drop 4
      if errpduLen > 123 then .fail (some ver) .none
      else if hdr.len.toNat < 16 + errpduLen then .fail (some ver) .none
      else if b2.length < errpduLen then .frag (some ver)
      else
        let b3 := b2.drop errpduLen
        if b3.length < 4 then .frag (some ver)
        else
          let errmsgLen := (readU32 b3).toNat
          let b4 := b3.drop 4
          -- rtrpdu_error_report_len returns a size_t, of 32-bit operands: the sum is computed in 32 bits
          if hdr.len ≠ 8 + 4 + BitVec.ofNat 32 errpduLen + 4 + BitVec.ofNat 32 errmsgLen then
            .fail (some ver) .none
          else if errmsgLen = 0 then .text (some ver) []
          -- src/rtr/pdu_stream.c:212-225 `read_string`: memcpy of errmsgLen bytes from `start`
          else if 1024 < off + 8 + 4 + errpduLen + 4 + errmsgLen then .ub
          else if b4.length < errmsgLen then .stale
          else .text (some ver) ((b4.take errmsgLen).take (placeNull (b4.take errmsgLen) 0))

/-- src/rtr/pdu_stream.c:289-317 `load_serial_query`. -/
def loadSerialQuery (v : BitVec 8) (hdr : PduHdr) (s : Stream) (raw : List Byte) : Step :=
  if hdr.len ≠ 12 then
    .fail (some v) (errOut v 3 raw (some (strBytes "Expected length 12 for Serial Query PDUs.")))
  else if s.buf.length < 12 then .frag (some v)
  else .pdu ⟨some v, s.off + 12, s.buf.drop 12⟩
    ⟨hdr.version, .serial hdr.m (readU32 (s.buf.drop 8)), raw, false⟩

/-- src/rtr/pdu_stream.c:319-344 `load_reset_query`. -/
def loadResetQuery (v : BitVec 8) (hdr : PduHdr) (s : Stream) (raw : List Byte) : Step :=
  if hdr.len ≠ 8 then
    .fail (some v) (errOut v 3 raw (some (strBytes "Expected length 8 for Reset Query PDUs.")))
  else if s.buf.length < 8 then .frag (some v)
  else .pdu ⟨some v, s.off + 8, s.buf.drop 8⟩ ⟨hdr.version, .reset, raw, false⟩

/-- The `switch` over the type in src/rtr/pdu_stream.c:503-615 `pdustream_next`. -/
def loadPdu (v : BitVec 8) (hdr : PduHdr) (s : Stream) (raw : List Byte) : Step :=
  if hdr.type = 1 then loadSerialQuery v hdr s raw
  else if hdr.type = 2 then loadResetQuery v hdr s raw
  else if hdr.type = 10 then loadErrorReport v hdr s.off s.buf
  else .fail (some v) (errOut v 5 raw .none)

/-- `raw` of src/rtr/pdu_stream.c:503-615 `pdustream_next`. -/
def rawOf (b : List Byte) : List Byte :=
  b.take (if (readHdr b).len.toNat ≤ b.length then (readHdr b).len.toNat else b.length)

/-- The body of the `while` of src/rtr/pdu_stream.c:503-615 `pdustream_next`. -/
def parseOne (s : Stream) : Step :=
  if s.buf.length < 8 then .frag s.ver
  else if (readHdr s.buf).len.toNat > 1024 then
    .fail s.ver (errOut (s.ver.getD (readHdr s.buf).version) 3 (rawOf s.buf)
      (some (strBytes "PDU is too large.")))
  else
    match validateVersion s.ver (readHdr s.buf).version (rawOf s.buf) with
    | .error e => .fail s.ver e
    | .ok v => loadPdu v (readHdr s.buf) s (rawOf s.buf)

/-- Case distinction on a conditional. -/
theorem ite_pred {α : Sort _} {c : Prop} [Decidable c] {a b : α} {P : α → Prop} (ha : c → P a) (hb : ¬ c → P b) :
    P (if c then a else b) := by
  by_cases h : c
  · rw [if_pos h]; exact ha h
  · rw [if_neg h]; exact hb h

theorem loadErrorReport_not_pdu {v : BitVec 8} {hdr : PduHdr} {off : Nat} {b : List Byte} {s' : Stream}
    {r : Request} : loadErrorReport v hdr off b ≠ .pdu s' r := by
  unfold loadErrorReport
  repeat' (refine ite_pred (P := fun x => x ≠ Step.pdu s' r) (fun _ => ?_) (fun _ => ?_))
  all_goals exact fun h => Step.noConfusion h

/-- What a step that accepts a query says. -/
theorem parseOne_pdu {s s' : Stream} {r : Request} (h : parseOne s = .pdu s' r) :
    8 ≤ s.buf.length ∧ ∃ v, validateVersion s.ver (readHdr s.buf).version (rawOf s.buf) = .ok v ∧
      (((readHdr s.buf).type = 1 ∧ (readHdr s.buf).len = 12 ∧ 12 ≤ s.buf.length ∧
          s' = ⟨some v, s.off + 12, s.buf.drop 12⟩ ∧
          r = ⟨(readHdr s.buf).version, .serial (readHdr s.buf).m (readU32 (s.buf.drop 8)), rawOf s.buf, false⟩) ∨
       ((readHdr s.buf).type = 2 ∧ (readHdr s.buf).len = 8 ∧
          s' = ⟨some v, s.off + 8, s.buf.drop 8⟩ ∧
          r = ⟨(readHdr s.buf).version, .reset, rawOf s.buf, false⟩)) := by
  unfold parseOne at h
  split at h
  · cases h
  · rename_i h8
    split at h
    · cases h
    · split at h
      · cases h
      · rename_i v hv
        refine ⟨by omega, v, hv, ?_⟩
        unfold loadPdu at h
        split at h
        · rename_i ht
          unfold loadSerialQuery at h
          split at h
          · cases h
          · split at h
            · cases h
            · rename_i hl _
              cases h
              exact Or.inl ⟨ht, by simpa using hl, by omega, rfl, rfl⟩
        · split at h
          · rename_i ht
            unfold loadResetQuery at h
            by_cases hl : (readHdr s.buf).len = 8
            · rw [if_neg (by simpa using hl), if_neg (by omega)] at h
              cases h
              exact Or.inr ⟨ht, hl, rfl, rfl⟩
            · rw [if_pos (by simpa using hl)] at h
              cases h
          · split at h
            · exact absurd h loadErrorReport_not_pdu
            · cases h

/-- The bytes of a PDU that was accepted are gone. -/
theorem parseOne_pdu_length {s s' : Stream} {r : Request} (h : parseOne s = .pdu s' r) :
    s'.buf.length + 8 ≤ s.buf.length := by
  obtain ⟨h8, v, _, ⟨_, _, _, rfl, _⟩ | ⟨_, _, rfl, _⟩⟩ := parseOne_pdu h <;> simp <;> omega

/-- How the parsing loop ends. -/
inductive LoopEnd
  | fine (s : Stream) (last : Option Request)
  | closed (e : ErrOut)
  | gotError (text : List Byte)
  | stale
  | ub
  deriving DecidableEq, Repr

/-- The `while` of src/rtr/pdu_stream.c:503-615 `pdustream_next`. `last` is `request`. -/
def parseLoop (s : Stream) (last : Option Request) : LoopEnd :=
  if s.buf.length = 0 then .fine s last
  else
    match h : parseOne s with
    | .frag v => .fine { s with ver := v } last
    | .fail _ e => .closed e
    | .text _ t => .gotError t
    | .stale => .stale
    | .ub => .ub
    | .pdu s' r => parseLoop s' (some r)
  termination_by s.buf.length
  decreasing_by have := parseOne_pdu_length h; omega

/-- The outcome of a call of `pdustream_next`. -/
inductive NextRes
  | ok (s : Stream) (es : List SockEv) (r : Option Request)   -- returns true
  | close (e : ErrOut)                                        -- returns false
  | stale                                                     -- used bytes that were not received; returns false
  | ub
  | spin                                                      -- did not finish within the fuel
  deriving DecidableEq, Repr

/-- src/rtr/pdu_stream.c:503-615 `pdustream_next`. `fuel` bounds the number of `goto again`; `C67_no_spin` shows
that it never runs out. -/
def pdustreamNext : Nat → Stream → List SockEv → Option Request → NextRes
  | 0, _, _, _ => .spin
  | fuel + 1, s, es, last =>
    let u := updateBuffer s es
    if u.2.2 = .error then .close .none
    else
      match parseLoop u.1 last with
      | .ub => .ub
      | .stale => .stale
      | .closed e => .close e
      | .gotError _ => .close .none
      | .fine s' req =>
        match u.2.2 with
        | .eos => match req with
          | none => .close .none
          | some r => .ok s' u.2.1 (some { r with eos := true })
        | .wouldBlock => .ok s' u.2.1 req
        | .keepReading => pdustreamNext fuel s' u.2.1 req
        | .error => .ub

/-- Bytes waiting on the socket. -/
def pending : List SockEv → Nat
  | [] => 0
  | .data bs :: es => bs.length + pending es
  | _ :: es => pending es

/-- A call of `pdustream_next` by the poller (src/rtr/rtr.c:450-464 `__handle_client_request`). -/
def Stream.next (s : Stream) (es : List SockEv) : NextRes :=
  pdustreamNext (pending es + 2) s es none

end Verif.Rtr
