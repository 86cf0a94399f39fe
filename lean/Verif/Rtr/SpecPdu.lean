/-
Independent specification of the RTR wire format (RFC 6810 and RFC 8210, section 5), written as a decoder.
-/
import Verif.Rtr.Model

namespace Verif.Rtr.Rfc

/-- Big-endian value of a byte string. -/
def be (b : List Byte) : Nat := b.foldl (fun acc x => 256 * acc + x.toNat) 0

/-- Decoded PDU body. -/
inductive Body
  | serialNotify (session serial : Nat)
  | serialQuery (session serial : Nat)
  | resetQuery
  | cacheResponse (session : Nat)
  | ipv4Prefix (announce : Bool) (len maxLen addr asn : Nat)
  | ipv6Prefix (announce : Bool) (len maxLen addr asn : Nat)
  | endOfDataV0 (session serial : Nat)
  | endOfDataV1 (session serial refresh retry expire : Nat)
  | cacheReset
  | routerKey (announce : Bool) (ski : List Byte) (asn : Nat) (spki : List Byte)
  | errorReport (code : Nat) (pdu : List Byte) (text : List Byte)
  deriving DecidableEq, Repr

/-- Decoded PDU. -/
structure Pdu where
  version : Nat
  body : Body
  deriving DecidableEq, Repr

/-- The announcement flag: 1 is an announcement, 0 a withdrawal, anything else malformed. -/
def announceFlag (n : Nat) : Option Bool :=
  if n = 1 then some true else if n = 0 then some false else none

/-- The bytes `[i, i + n)`. -/
def field (b : List Byte) (i n : Nat) : List Byte := (b.drop i).take n

/-- RFC 8210 section 5.6 and 5.7, after the header: flags, lengths, zero byte, address, AS. -/
def decodePrefix (addrLen : Nat) (mk : Bool → Nat → Nat → Nat → Nat → Body) (b : List Byte) : Option Body :=
  if b.length = 8 + 4 + addrLen + 4 ∧ be (field b 2 2) = 0 ∧ be (field b 11 1) = 0 then
    (announceFlag (be (field b 8 1))).map (fun a =>
      mk a (be (field b 9 1)) (be (field b 10 1)) (be (field b 12 addrLen)) (be (field b (12 + addrLen) 4)))
  else none

/-- RFC 8210 section 5.11: code, encapsulated PDU and text with their lengths. -/
def decodeError (b : List Byte) : Option Body :=
  let pl := be (field b 8 4)
  let tl := be (field b (12 + pl) 4)
  if 16 + pl + tl = b.length then
    some (.errorReport (be (field b 2 2)) (field b 12 pl) (field b (16 + pl) tl))
  else none

/-- Decode one whole PDU. Its length field has to be the length of the byte string. -/
def decode (b : List Byte) : Option Pdu :=
  if b.length < 8 ∨ be (field b 4 4) ≠ b.length then none
  else
    let version := be (field b 0 1)
    let m := be (field b 2 2)
    let serial := be (field b 8 4)
    let body : Option Body :=
      match be (field b 1 1) with
      | 0 => if b.length = 12 then some (.serialNotify m serial) else none
      | 1 => if b.length = 12 then some (.serialQuery m serial) else none
      | 2 => if b.length = 8 ∧ m = 0 then some .resetQuery else none
      | 3 => if b.length = 8 then some (.cacheResponse m) else none
      | 4 => decodePrefix 4 .ipv4Prefix b
      | 6 => decodePrefix 16 .ipv6Prefix b
      | 7 => if version = 0 ∧ b.length = 12 then some (.endOfDataV0 m serial)
             else if version = 1 ∧ b.length = 24 then
               some (.endOfDataV1 m serial (be (field b 12 4)) (be (field b 16 4)) (be (field b 20 4)))
             else none
      | 8 => if b.length = 8 ∧ m = 0 then some .cacheReset else none
      | 9 => if version = 1 ∧ b.length = 123 ∧ be (field b 3 1) = 0 then
               (announceFlag (be (field b 2 1))).map (fun a =>
                 .routerKey a (field b 8 20) (be (field b 28 4)) (field b 32 91))
             else none
      | 10 => decodeError b
      | _ => none
    body.map (fun x => ⟨version, x⟩)

/-- Decode a stream: cut it by the length fields and decode each piece. `fuel` bounds the number of PDUs. -/
def decodeStream : Nat → List Byte → Option (List Pdu)
  | _, [] => some []
  | 0, _ => none
  | fuel + 1, b =>
    let n := be (field b 4 4)
    if b.length < 8 ∨ n < 8 ∨ b.length < n then none
    else (decode (b.take n)).bind (fun p => (decodeStream fuel (b.drop n)).map (fun ps => p :: ps))

end Verif.Rtr.Rfc
