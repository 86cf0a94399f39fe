/-
C13, C14, C65: the bytes of the PDUs sent.
-/
import Mathlib.Tactic.IntervalCases
import Verif.Rtr.ModelPdu
import Verif.Rtr.SpecPdu

namespace Verif.Rtr

open Rfc

/-- What a call of a sender is meant to say, in RFC terms. -/
def SendCall.meaning : SendCall → Rfc.Pdu
  | .serialNotify v s n => ⟨v.toNat, .serialNotify s.toNat n.toNat⟩
  | .cacheReset v => ⟨v.toNat, .cacheReset⟩
  | .cacheResponse v s => ⟨v.toNat, .cacheResponse s.toNat⟩
  | .prefix4 v p f => ⟨v.toNat, .ipv4Prefix (decide (f = .announcement)) p.len.toNat p.maxLen.toNat
      p.prefix_.toNat p.asn.toNat⟩
  | .prefix6 v p f => ⟨v.toNat, .ipv6Prefix (decide (f = .announcement)) p.len.toNat p.maxLen.toNat
      p.prefix_.toNat p.asn.toNat⟩
  | .routerKey v k f => ⟨v.toNat, .routerKey (decide (f = .announcement)) k.ski k.as.toNat k.spk⟩
  | .endOfData v s n a b c => ⟨v.toNat,
      if v = 1 then .endOfDataV1 s.toNat n.toNat a.toNat b.toNat c.toNat else .endOfDataV0 s.toNat n.toNat⟩
  | .errorReport v code req msg => ⟨v.toNat,
      .errorReport code.toNat ((req.getD []).take (computeErrorPduLen req)) (msg.getD [])⟩

/-- Well-formed sender arguments: negotiated version 0 or 1, no router key for version 0, the fixed sizes of
SKI and SPKI, IPv4 addresses below 2^32, an error text shorter than 2^31 bytes. -/
def SendCall.WF : SendCall → Prop
  | .serialNotify v _ _ | .cacheReset v | .cacheResponse v _ | .endOfData v _ _ _ _ _ => v = 0 ∨ v = 1
  | .prefix4 v p _ => (v = 0 ∨ v = 1) ∧ p.prefix_.toNat < 2 ^ 32
  | .prefix6 v _ _ => v = 0 ∨ v = 1
  | .routerKey v k _ => v = 1 ∧ k.ski.length = 20 ∧ k.spk.length = 91
  | .errorReport v _ _ msg => (v = 0 ∨ v = 1) ∧ (msg.getD []).length < 2 ^ 31

theorem be_u8 (v : BitVec 8) : be [v] = v.toNat := by simp [be]

theorem be_u16 (v : BitVec 16) : be (writeU16 v) = v.toNat := by
  have := v.isLt
  simp [be, writeU16, Nat.shiftRight_eq_div_pow]
  omega

theorem be_u32 (v : BitVec 32) : be (writeU32 v) = v.toNat := by
  have := v.isLt
  simp [be, writeU32, Nat.shiftRight_eq_div_pow]
  omega

theorem be_append (l : List Byte) (b : Byte) : be (l ++ [b]) = 256 * be l + b.toNat := by
  simp [be]

theorem be_range (n x : Nat) :
    be ((List.range n).map (fun i => BitVec.ofNat 8 (x / 256 ^ (n - 1 - i)))) = x % 256 ^ n := by
  induction n generalizing x with
  | zero => simp [be, Nat.mod_one]
  | succ n ih =>
    rw [List.range_succ, List.map_append, List.map_singleton, be_append]
    have : (List.range n).map (fun i => BitVec.ofNat 8 (x / 256 ^ (n + 1 - 1 - i))) =
        (List.range n).map (fun i => BitVec.ofNat 8 (x / 256 / 256 ^ (n - 1 - i))) := by
      apply List.map_congr_left
      intro i hi
      rw [List.mem_range] at hi
      rw [Nat.div_div_eq_div_mul, ← Nat.pow_succ', show n + 1 - 1 - i = (n - 1 - i).succ by omega]
    rw [this, ih]
    simp only [BitVec.toNat_ofNat, Nat.add_sub_cancel, Nat.sub_self, Nat.pow_zero, Nat.div_one]
    rw [show 256 ^ (n + 1) = 256 * 256 ^ n from Nat.pow_succ', Nat.mod_mul]
    omega

theorem be_in6 (v : BitVec 128) : be (writeIn6 v) = v.toNat := by
  have hv := v.isLt
  have : writeIn6 v = (List.range 16).map (fun i => BitVec.ofNat 8 (v.toNat / 256 ^ (16 - 1 - i))) := by
    unfold writeIn6 writeU8
    rw [← List.map_eq_flatMap]
    apply List.map_congr_left
    intro i _
    apply BitVec.eq_of_toNat_eq
    simp only [BitVec.toNat_setWidth, BitVec.toNat_ushiftRight, BitVec.toNat_ofNat, Nat.shiftRight_eq_div_pow]
    rw [Nat.pow_mul]
  rw [this, be_range]
  exact Nat.mod_eq_of_lt hv

theorem computeErrorPduLen_le (r : Option (List Byte)) :
    computeErrorPduLen r ≤ 123 ∧ computeErrorPduLen r ≤ (r.getD []).length := by
  cases r with
  | none => simp [computeErrorPduLen]
  | some b =>
    simp only [computeErrorPduLen, Option.getD_some]
    split
    · simp
    · split
      · split <;> split <;> omega
      · simp

theorem bytes_length (c : SendCall) (h : c.WF) :
    c.bytes.length = match c with
      | .serialNotify .. => 12 | .cacheReset _ => 8 | .cacheResponse .. => 8 | .prefix4 .. => 20
      | .prefix6 .. => 32 | .routerKey .. => 123 | .endOfData v .. => if v = 1 then 24 else 12
      | .errorReport _ _ r m => 16 + computeErrorPduLen r + (m.getD []).length := by
  cases c with
  | routerKey v k f => simp [SendCall.WF] at h; simp [SendCall.bytes, serializeHdr, writeU8, writeU16, writeU32, h]
  | endOfData v s n a b c =>
    simp only [SendCall.bytes]
    split <;> simp [serializeHdr, writeU8, writeU16, writeU32]
  | errorReport v code r m =>
    have := computeErrorPduLen_le r
    simp [SendCall.bytes, serializeHdr, writeU8, writeU16, writeU32]
    omega
  | _ => simp [SendCall.bytes, serializeHdr, writeU8, writeU16, writeU32, writeIn4, writeIn6, List.range_succ,
      List.flatMap_cons]

theorem field_mid (p q r : List Byte) (i n : Nat) (hi : p.length = i) (hn : q.length = n) :
    field (p ++ (q ++ r)) i n = q := by
  subst hi hn
  simp [field]

theorem or_eq_add {x y i : Nat} (hx : 2 ^ i ∣ x) (hy : y < 2 ^ i) : x ||| y = x + y := by
  obtain ⟨k, rfl⟩ := hx
  exact (Nat.two_pow_add_eq_or_of_lt hy k).symm

theorem or4_toNat (b4 b5 b6 b7 : BitVec 8) :
    (b4.setWidth 32 <<< 24 ||| b5.setWidth 32 <<< 16 ||| b6.setWidth 32 <<< 8 ||| b7.setWidth 32).toNat =
      2 ^ 24 * b4.toNat + 2 ^ 16 * b5.toNat + 2 ^ 8 * b6.toNat + b7.toNat := by
  have h4 := b4.isLt; have h5 := b5.isLt; have h6 := b6.isLt; have h7 := b7.isLt
  have e4 : (b4.setWidth 32 <<< 24).toNat = 2 ^ 24 * b4.toNat := by
    simp [BitVec.toNat_shiftLeft, Nat.shiftLeft_eq]; omega
  have e5 : (b5.setWidth 32 <<< 16).toNat = 2 ^ 16 * b5.toNat := by
    simp [BitVec.toNat_shiftLeft, Nat.shiftLeft_eq]; omega
  have e6 : (b6.setWidth 32 <<< 8).toNat = 2 ^ 8 * b6.toNat := by
    simp [BitVec.toNat_shiftLeft, Nat.shiftLeft_eq]; omega
  have e7 : (b7.setWidth 32).toNat = b7.toNat := by
    simp; omega
  rw [BitVec.toNat_or, BitVec.toNat_or, BitVec.toNat_or, e4, e5, e6, e7]
  rw [or_eq_add (x := 2 ^ 24 * b4.toNat) (y := 2 ^ 16 * b5.toNat) (i := 24) (by omega) (by omega)]
  rw [or_eq_add (x := 2 ^ 24 * b4.toNat + 2 ^ 16 * b5.toNat) (i := 16) (by omega) (by omega)]
  rw [or_eq_add (i := 8) (by omega) (by omega)]

theorem flag_announce (f : Flag) : announceFlag (be [f.byte]) = some (decide (f = .announcement)) := by
  cases f <;> rfl

theorem u32_toNat_ofNat {n : Nat} (h : n < 2 ^ 32) : (BitVec.ofNat 32 n).toNat = n := by
  rw [BitVec.toNat_ofNat]; exact Nat.mod_eq_of_lt h

/-- The header fields of anything that starts with `serialize_hdr`. -/
theorem hdr_fields (v t : BitVec 8) (m : BitVec 16) (len : BitVec 32) (rest : List Byte) :
    be (field (serializeHdr v t m len ++ rest) 0 1) = v.toNat ∧
    be (field (serializeHdr v t m len ++ rest) 1 1) = t.toNat ∧
    be (field (serializeHdr v t m len ++ rest) 2 2) = m.toNat ∧
    be (field (serializeHdr v t m len ++ rest) 4 4) = len.toNat ∧
    ∀ i n, field (serializeHdr v t m len ++ rest) (8 + i) n = field rest i n := by
  refine ⟨be_u8 v, be_u8 t, be_u16 m, be_u32 len, ?_⟩
  intro i n
  unfold field
  rw [show 8 + i = (serializeHdr v t m len).length + i from rfl, List.drop_append,
    List.drop_eq_nil_of_le (by omega)]
  simp

/-- C13. An independent RFC decoder recovers from the bytes of every sender exactly what the sender was asked
to say; in particular the length field is the number of bytes. -/
theorem C13_roundtrip (c : SendCall) (h : c.WF) : decode c.bytes = some c.meaning := by
  have hl := bytes_length c h
  cases c with
  | serialNotify v s n =>
    obtain ⟨f0, f1, f2, f4, fr⟩ := hdr_fields v 0 s 12 (writeU32 n)
    have e : (SendCall.serialNotify v s n).bytes = serializeHdr v 0 s 12 ++ writeU32 n := rfl
    have f8 : be (field (serializeHdr v 0 s 12 ++ writeU32 n) 8 4) = n.toNat := be_u32 n
    rw [e] at hl ⊢
    simp only at hl
    unfold decode
    rw [f0, f1, f2, f4, f8, hl, if_neg (by decide)]
    rfl
  | cacheReset v =>
    obtain ⟨f0, f1, f2, f4, fr⟩ := hdr_fields v 8 0 8 []
    have e : (SendCall.cacheReset v).bytes = serializeHdr v 8 0 8 ++ [] := by simp [SendCall.bytes]
    rw [e] at hl ⊢
    simp only at hl
    unfold decode
    rw [f0, f1, f2, f4, hl, if_neg (by decide)]
    rfl
  | cacheResponse v s =>
    obtain ⟨f0, f1, f2, f4, fr⟩ := hdr_fields v 3 s 8 []
    have e : (SendCall.cacheResponse v s).bytes = serializeHdr v 3 s 8 ++ [] := by simp [SendCall.bytes]
    rw [e] at hl ⊢
    simp only at hl
    unfold decode
    rw [f0, f1, f2, f4, hl, if_neg (by decide)]
    rfl
  | prefix4 v p f =>
    have e : (SendCall.prefix4 v p f).bytes = serializeHdr v 4 0 20 ++ (writeU8 f.byte ++ writeU8 p.len ++
      writeU8 p.maxLen ++ writeU8 0 ++ writeIn4 p.prefix_ ++ writeU32 p.asn) := by simp [SendCall.bytes]
    obtain ⟨f0, f1, f2, f4, fr⟩ := hdr_fields v 4 0 20 (writeU8 f.byte ++ writeU8 p.len ++
      writeU8 p.maxLen ++ writeU8 0 ++ writeIn4 p.prefix_ ++ writeU32 p.asn)
    rw [e] at hl ⊢
    simp only at hl
    unfold decode
    rw [f0, f1, f4, hl, if_neg (by decide)]
    change Option.map _ (decodePrefix 4 _ _) = _
    unfold decodePrefix
    rw [f2, hl, if_pos ⟨rfl, rfl, rfl⟩]
    have g8 : announceFlag (be (field (serializeHdr v 4 0 20 ++ (writeU8 f.byte ++ writeU8 p.len ++
      writeU8 p.maxLen ++ writeU8 0 ++ writeIn4 p.prefix_ ++ writeU32 p.asn)) 8 1)) =
      some (decide (f = .announcement)) := flag_announce f
    rw [g8]
    simp only [Option.map_some, SendCall.meaning]
    congr 3
    · exact be_u8 p.len
    · exact be_u8 p.maxLen
    · have : be (writeIn4 p.prefix_) = p.prefix_.toNat := by
        rw [writeIn4, be_u32, BitVec.toNat_setWidth]
        exact Nat.mod_eq_of_lt h.2
      exact this
    · exact be_u32 p.asn
  | prefix6 v p f =>
    have e : (SendCall.prefix6 v p f).bytes = serializeHdr v 6 0 32 ++ (writeU8 f.byte ++ writeU8 p.len ++
      writeU8 p.maxLen ++ writeU8 0 ++ writeIn6 p.prefix_ ++ writeU32 p.asn) := by simp [SendCall.bytes]
    obtain ⟨f0, f1, f2, f4, fr⟩ := hdr_fields v 6 0 32 (writeU8 f.byte ++ writeU8 p.len ++
      writeU8 p.maxLen ++ writeU8 0 ++ writeIn6 p.prefix_ ++ writeU32 p.asn)
    rw [e] at hl ⊢
    simp only at hl
    unfold decode
    rw [f0, f1, f4, hl, if_neg (by decide)]
    change Option.map _ (decodePrefix 16 _ _) = _
    unfold decodePrefix
    rw [f2, hl, if_pos ⟨rfl, rfl, rfl⟩]
    have g8 : announceFlag (be (field (serializeHdr v 6 0 32 ++ (writeU8 f.byte ++ writeU8 p.len ++
      writeU8 p.maxLen ++ writeU8 0 ++ writeIn6 p.prefix_ ++ writeU32 p.asn)) 8 1)) =
      some (decide (f = .announcement)) := flag_announce f
    rw [g8]
    simp only [Option.map_some, SendCall.meaning]
    congr 3
    · exact be_u8 p.len
    · exact be_u8 p.maxLen
    · exact be_in6 p.prefix_
    · exact be_u32 p.asn
  | routerKey v k f =>
    obtain ⟨hv, h1, h2⟩ := h
    subst hv
    have e : (SendCall.routerKey 1 k f).bytes = serializeHdr 1 9 (f.byte.setWidth 16 <<< 8) 123 ++
      (k.ski ++ (writeU32 k.as ++ k.spk)) := by simp [SendCall.bytes]
    obtain ⟨f0, f1, f2, f4, fr⟩ := hdr_fields 1 9 (f.byte.setWidth 16 <<< 8) 123
      (k.ski ++ (writeU32 k.as ++ k.spk))
    rw [e] at hl ⊢
    simp only at hl
    generalize hb : serializeHdr 1 9 (f.byte.setWidth 16 <<< 8) 123 ++ (k.ski ++ (writeU32 k.as ++ k.spk)) = b at *
    have g2 : field b 2 1 = [f.byte] := by subst hb; cases f <;> rfl
    have g3 : field b 3 1 = [0] := by subst hb; cases f <;> rfl
    have g8 : field b 8 20 = k.ski := by
      rw [show 8 = 8 + 0 from rfl, fr]; exact field_mid [] k.ski _ 0 20 rfl h1
    have g28 : field b 28 4 = writeU32 k.as := by
      rw [show 28 = 8 + 20 from rfl, fr]; exact field_mid k.ski _ k.spk 20 4 h1 rfl
    have g32 : field b 32 91 = k.spk := by
      rw [show 32 = 8 + 24 from rfl, fr]
      have := field_mid (k.ski ++ writeU32 k.as) k.spk [] 24 91 (by simp [h1, writeU32]) h2
      simpa using this
    unfold decode
    rw [f0, f1, f4, hl, if_neg (by decide)]
    change Option.map _ (if (1 : BitVec 8).toNat = 1 ∧ 123 = 123 ∧ be (field b 3 1) = 0 then
      (announceFlag (be (field b 2 1))).map _ else none) = _
    rw [g3, if_pos ⟨rfl, rfl, rfl⟩, g2, flag_announce, g8, g28, g32, be_u32]
    rfl
  | endOfData v s n a b c =>
    rcases h with rfl | rfl
    · have e : (SendCall.endOfData 0 s n a b c).bytes = serializeHdr 0 7 s 12 ++ writeU32 n := by
        simp [SendCall.bytes]
      obtain ⟨f0, f1, f2, f4, fr⟩ := hdr_fields 0 7 s 12 (writeU32 n)
      have f8 : be (field (serializeHdr 0 7 s 12 ++ writeU32 n) 8 4) = n.toNat := be_u32 n
      rw [e] at hl ⊢
      have hl' : (serializeHdr 0 7 s 12 ++ writeU32 n).length = 12 := hl
      unfold decode
      rw [f0, f1, f2, f4, f8, hl', if_neg (by decide)]
      rfl
    · have e : (SendCall.endOfData 1 s n a b c).bytes = serializeHdr 1 7 s 24 ++ (writeU32 n ++
          (writeU32 a ++ writeU32 b ++ writeU32 c)) := by
        simp [SendCall.bytes]
      obtain ⟨f0, f1, f2, f4, fr⟩ := hdr_fields 1 7 s 24 (writeU32 n ++ (writeU32 a ++ writeU32 b ++ writeU32 c))
      rw [e] at hl ⊢
      generalize hb : serializeHdr 1 7 s 24 ++ (writeU32 n ++ (writeU32 a ++ writeU32 b ++ writeU32 c)) = bb at *
      have hl' : bb.length = 24 := hl
      have f8 : be (field bb 8 4) = n.toNat := by subst hb; exact be_u32 n
      have f12 : be (field bb 12 4) = a.toNat := by subst hb; exact be_u32 a
      have f16 : be (field bb 16 4) = b.toNat := by subst hb; exact be_u32 b
      have f20 : be (field bb 20 4) = c.toNat := by subst hb; exact be_u32 c
      unfold decode
      rw [f0, f1, f2, f4, f8, f12, f16, f20, hl', if_neg (by decide)]
      rfl
  | errorReport v code r m =>
    obtain ⟨_, hm⟩ := h
    obtain ⟨hc1, hc2⟩ := computeErrorPduLen_le r
    generalize hepl : computeErrorPduLen r = epl at *
    have htk : ((r.getD []).take epl).length = epl := by rw [List.length_take]; omega
    have e : (SendCall.errorReport v code r m).bytes =
      serializeHdr v 10 code (8 + 4 + BitVec.ofNat 32 epl + 4 + BitVec.ofNat 32 (m.getD []).length) ++
        (writeU32 (BitVec.ofNat 32 epl) ++ ((r.getD []).take epl ++
          (writeU32 (BitVec.ofNat 32 (m.getD []).length) ++ m.getD []))) := by
      simp [SendCall.bytes, hepl]
    have hlen : (8 + 4 + BitVec.ofNat 32 epl + 4 + BitVec.ofNat 32 (m.getD []).length : BitVec 32).toNat =
        16 + epl + (m.getD []).length := by
      simp only [BitVec.toNat_add, BitVec.toNat_ofNat, show (8 : BitVec 32).toNat = 8 from rfl,
        show (4 : BitVec 32).toNat = 4 from rfl]
      omega
    obtain ⟨f0, f1, f2, f4, fr⟩ := hdr_fields v 10 code
      (8 + 4 + BitVec.ofNat 32 epl + 4 + BitVec.ofNat 32 (m.getD []).length)
      (writeU32 (BitVec.ofNat 32 epl) ++ ((r.getD []).take epl ++
          (writeU32 (BitVec.ofNat 32 (m.getD []).length) ++ m.getD [])))
    rw [e] at hl ⊢
    simp only [hepl] at hl
    rw [hlen] at f4
    generalize serializeHdr v 10 code
      (8 + 4 + BitVec.ofNat 32 epl + 4 + BitVec.ofNat 32 (m.getD []).length) ++
      (writeU32 (BitVec.ofNat 32 epl) ++ ((r.getD []).take epl ++
          (writeU32 (BitVec.ofNat 32 (m.getD []).length) ++ m.getD []))) = b at *
    have g8 : be (field b 8 4) = epl := by
      have : field b 8 4 = writeU32 (BitVec.ofNat 32 epl) := by
        rw [show 8 = 8 + 0 from rfl, fr]; exact field_mid [] (writeU32 (BitVec.ofNat 32 epl)) _ 0 4 rfl rfl
      rw [this, be_u32, u32_toNat_ofNat (by omega)]
    have g12 : field b 12 epl = (r.getD []).take epl := by
      rw [show 12 = 8 + 4 from rfl, fr]
      exact field_mid (writeU32 (BitVec.ofNat 32 epl)) _ _ 4 epl rfl htk
    have g12' : be (field b (12 + epl) 4) = (m.getD []).length := by
      rw [show 12 + epl = 8 + (4 + epl) by omega, fr, ← List.append_assoc, field_mid _ _ _ (4 + epl) 4
        (by rw [List.length_append, htk]; rfl) rfl, be_u32, u32_toNat_ofNat (by omega)]
    have g16 : field b (16 + epl) (m.getD []).length = m.getD [] := by
      rw [show 16 + epl = 8 + (8 + epl) by omega, fr]
      have := field_mid (writeU32 (BitVec.ofNat 32 epl) ++ ((r.getD []).take epl ++
          writeU32 (BitVec.ofNat 32 (m.getD []).length))) (m.getD []) [] (8 + epl) _
          (by simp only [List.length_append, htk]; simp [writeU32]; omega) rfl
      simpa using this
    unfold decode
    rw [f0, f1, f4, hl, if_neg (by omega)]
    change Option.map _ (decodeError b) = _
    unfold decodeError
    simp only [g8, g12', g12, g16, f2, hl, if_true]
    simp [SendCall.meaning, hepl]

/-- C13, several PDUs in a row: a router which cuts the stream by the length fields reads exactly the PDUs that
were sent, in order. -/
theorem C13_stream (cs : List SendCall) (h : ∀ c ∈ cs, c.WF) :
    decodeStream cs.length (cs.flatMap SendCall.bytes) = some (cs.map SendCall.meaning) := by
  induction cs with
  | nil => rfl
  | cons c cs ih =>
    have hc := C13_roundtrip c (h c (by simp))
    have ihc := ih (fun x hx => h x (by simp [hx]))
    have hlen : ¬ (c.bytes.length < 8 ∨ be (field c.bytes 4 4) ≠ c.bytes.length) := by
      intro hh
      rw [decode, if_pos hh] at hc
      cases hc
    have h8 : 8 ≤ c.bytes.length := by omega
    have hn : be (field c.bytes 4 4) = c.bytes.length := by omega
    have hf : field (c.bytes ++ cs.flatMap SendCall.bytes) 4 4 = field c.bytes 4 4 := by
      unfold field
      rw [List.drop_append_of_le_length (by omega), List.take_append_of_le_length (by rw [List.length_drop]; omega)]
    rw [List.flatMap_cons, List.length_cons]
    have hne : ∃ x xs, c.bytes ++ cs.flatMap SendCall.bytes = x :: xs := by
      cases hb : c.bytes with
      | nil => rw [hb] at h8; simp at h8
      | cons x xs => exact ⟨x, _, rfl⟩
    obtain ⟨x, xs, hx⟩ := hne
    have : decodeStream (cs.length + 1) (c.bytes ++ cs.flatMap SendCall.bytes) =
        (decode ((c.bytes ++ cs.flatMap SendCall.bytes).take c.bytes.length)).bind (fun p =>
          (decodeStream cs.length ((c.bytes ++ cs.flatMap SendCall.bytes).drop c.bytes.length)).map
            (fun ps => p :: ps)) := by
      rw [hx, decodeStream]
      rw [← hx, hf, hn, if_neg]
      · rw [List.length_append]; omega
      · simp
    rw [this, List.take_left', List.drop_left', hc, ihc]
    · rfl
    · rfl
    · rfl

/-- A VRP and a key, really sent. -/
example : decodeStream 3 ([SendCall.cacheResponse 1 7, .prefix4 1 ⟨64500, .v4, 0xC0000200, 24, 25⟩ .announcement,
      .endOfData 1 7 9 3600 600 7200].flatMap SendCall.bytes) =
    some [⟨1, .cacheResponse 7⟩, ⟨1, .ipv4Prefix true 24 25 0xC0000200 64500⟩,
      ⟨1, .endOfDataV1 7 9 3600 600 7200⟩] := by decide

/-- C14. In the Error Report about a received byte string, the encapsulated PDU is a prefix of what was received,
at most 123 bytes long (and by `C13_roundtrip` its length fields are consistent); the text is the message. If at
least a header was received, the prefix has the length the header announces, cut to what was received and to 123
bytes; otherwise it is empty. -/
theorem C14_error_report (v : BitVec 8) (code : BitVec 16) (r : List Byte) (msg : Option (List Byte))
    (hv : v = 0 ∨ v = 1) (hm : (msg.getD []).length < 2 ^ 31) :
    ∃ pdu, decode (SendCall.errorReport v code (some r) msg).bytes =
        some ⟨v.toNat, .errorReport code.toNat pdu (msg.getD [])⟩ ∧
      pdu <+: r ∧ pdu.length = if r.length < 8 then 0 else min (min (be (field r 4 4)) r.length) 123 := by
  refine ⟨r.take (computeErrorPduLen (some r)), C13_roundtrip _ ⟨hv, hm⟩, List.take_prefix _ _, ?_⟩
  rw [List.length_take]
  simp only [computeErrorPduLen]
  split
  · simp
  · rename_i h8
    obtain ⟨b0, b1, b2, b3, b4, b5, b6, b7, rest, rfl⟩ : ∃ b0 b1 b2 b3 b4 b5 b6 b7 rest,
        r = b0 :: b1 :: b2 :: b3 :: b4 :: b5 :: b6 :: b7 :: rest := by
      rcases r with _ | ⟨b0, _ | ⟨b1, _ | ⟨b2, _ | ⟨b3, _ | ⟨b4, _ | ⟨b5, _ | ⟨b6, _ | ⟨b7, rest⟩⟩⟩⟩⟩⟩⟩⟩ <;>
        first
        | (simp at h8; done)
        | exact ⟨_, _, _, _, _, _, _, _, _, rfl⟩
    simp only [List.getElem?_cons_succ, List.getElem?_cons_zero]
    have hbe : (b4.setWidth 32 <<< 24 ||| b5.setWidth 32 <<< 16 ||| b6.setWidth 32 <<< 8 ||| b7.setWidth 32).toNat =
        be (field (b0 :: b1 :: b2 :: b3 :: b4 :: b5 :: b6 :: b7 :: rest) 4 4) := by
      have : field (b0 :: b1 :: b2 :: b3 :: b4 :: b5 :: b6 :: b7 :: rest) 4 4 = [b4, b5, b6, b7] := rfl
      rw [this]
      rw [or4_toNat]
      simp only [be, List.foldl_cons, List.foldl_nil]
      omega
    rw [hbe]
    split <;> split <;> omega

/-- A reset query answered with an error: its 8 bytes are in the report. -/
example : decode (SendCall.errorReport 1 3 (some [1, 2, 0, 0, 0, 0, 0, 8]) none).bytes =
    some ⟨1, .errorReport 3 [1, 2, 0, 0, 0, 0, 0, 8] []⟩ := by decide

/-- C65 is false: `write` may take only part of the PDU (a short write on a non-blocking socket); the code takes
that for success, and the rest of the PDU is never sent. -/
theorem C65_short_write_is_success :
    sendResponseRaw [⟨1, false, true⟩] (.inr 5) (SendCall.cacheResponse 1 7).bytes =
      some ((SendCall.cacheResponse 1 7).bytes.take 5, 0) ∧
    (SendCall.cacheResponse 1 7).bytes.take 5 ≠ (SendCall.cacheResponse 1 7).bytes := by decide

/-- C65, the part that holds: if `write` fails or takes everything, then a send that reports success put the
whole PDU on the wire and one that reports an error put nothing on it. -/
theorem C65_all_or_nothing_partial (polls : List PollRes) (w : Int ⊕ Nat) (data wire : List Byte) (ret : Int)
    (hw : match w with | .inl e => 0 < e | .inr n => n = data.length)
    (h : sendResponseRaw polls w data = some (wire, ret)) :
    (ret = 0 ∧ wire = data) ∨ ((ret = -EINVAL ∨ 0 < ret) ∧ wire = []) := by
  induction polls with
  | nil => cases h
  | cons p ps ih =>
    simp only [sendResponseRaw] at h
    split at h
    · cases h; simp
    · split at h
      · cases h; simp
      · split at h
        · cases h; simp
        · split at h
          · exact ih h
          · cases w with
            | inl e => simp only [Option.some.injEq, Prod.mk.injEq] at h; rw [← h.1, ← h.2]; exact Or.inr ⟨Or.inr hw, rfl⟩
            | inr n =>
              simp only [Option.some.injEq, Prod.mk.injEq] at h
              simp only at hw
              rw [← h.1, ← h.2, hw, List.take_length]
              exact Or.inl ⟨rfl, rfl⟩

example : sendResponseRaw [⟨1, false, false⟩, ⟨1, false, true⟩] (.inr 8) (SendCall.cacheReset 1).bytes =
    some ((SendCall.cacheReset 1).bytes, 0) := by decide

end Verif.Rtr
