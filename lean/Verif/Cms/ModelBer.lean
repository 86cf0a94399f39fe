import Verif.Res.Spec
/-
asn1c's TLV functions, and the code that looks for the bytes a signature is about.

A pointer into a buffer, together with the number of bytes left, is the list of the bytes left. The buffer of an asn1c string
has one more byte than its size says, a zero (src/asn1/asn1c/OCTET_STRING.c, macro `APPEND`); it has less than 2^31 bytes, so
conversions to `int` keep lengths. Recursion depth is not limited here (the stack is not modelled).
-/
namespace Verif.Cms
open Verif.Res (Byte)

/-- Results of `berFetchLength`: the length's own length and the value's (`defn`), or indefinite (own length 1); 0 ("want more") or
-1. -/
inductive Len where
  | defn (ll v : Nat)
  | indef
  | more
  | bad
  deriving DecidableEq, Repr

/-- The loop of src/asn1/asn1c/ber_tlv_length.c:10-66 `ber_fetch_length`: `n` more octets. `RSSIZE_MAX` is 2^62 - 1. -/
def lenLoop : Nat → List Byte → Nat → Nat → Len
  | 0, _, len, skipped => if len > 2 ^ 62 - 1 then .bad else .defn skipped len
  | _ + 1, [], _, _ => .more
  | n + 1, b :: s, len, skipped =>
    if len >>> 55 ≠ 0 then .bad
    else lenLoop n s (len * 256 + b.toNat) (skipped + 1)

/-- src/asn1/asn1c/ber_tlv_length.c:10-66 `ber_fetch_length` -/
def berFetchLength (constructed : Bool) : List Byte → Len
  | [] => .more
  | oct :: s =>
    if oct &&& 0x80 = 0 then .defn 1 oct.toNat
    else if constructed ∧ oct = 0x80 then .indef
    else if oct = 0xff then .bad
    else lenLoop (oct &&& 0x7F).toNat s 0 1

/-- Results of functions that say how many bytes to skip. `stuck`: recursion did not end. -/
inductive Skip where
  | ok (n : Nat)
  | more
  | bad
  | stuck
  deriving DecidableEq, Repr

/-- The loop of src/asn1/asn1c/ber_tlv_tag.c:10-59 `ber_fetch_tag`; `val` is a 32 bit number. -/
def tagLoop : List Byte → Nat → Nat → Skip
  | [], _, _ => .more
  | oct :: s, val, skipped =>
    if oct &&& 0x80 ≠ 0 then
      let val := (val * 128 + (oct &&& 0x7F).toNat) % 2 ^ 32
      if val >>> 23 ≠ 0 then .bad else tagLoop s val (skipped + 1)
    else .ok skipped

/-- src/asn1/asn1c/ber_tlv_tag.c:10-59 `ber_fetch_tag`, without the tag's value. -/
def berFetchTag : List Byte → Skip
  | [] => .more
  | t :: s => if t &&& 0x1F ≠ 0x1F then .ok 1 else tagLoop s 0 2

/-- Macro `BER_TLV_CONSTRUCTED` (src/asn1/asn1c/ber_tlv_tag.h:31) of the byte at the pointer. After the last byte there is a zero. -/
def isConstructed (s : List Byte) : Bool := decide (s.headD 0 &&& 0x20 ≠ 0)

mutual
/-- src/asn1/asn1c/ber_tlv_length.c:68-130 `ber_skip_length`; the first number bounds the recursion. -/
def berSkipLength : Nat → Bool → List Byte → Skip
  | 0, _, _ => .stuck
  | f + 1, constructed, s =>
    match berFetchLength constructed s with
    | .more => .more
    | .bad => .bad
    | .defn ll v => if ll + v > s.length then .more else .ok (ll + v)
    | .indef => skipItems f (s.drop 1) 1

/-- The loop of src/asn1/asn1c/ber_tlv_length.c:68-130 `ber_skip_length`: elements of an indefinite length. -/
def skipItems : Nat → List Byte → Nat → Skip
  | 0, _, _ => .stuck
  | f + 1, s, skip =>
    match berFetchTag s with
    | .ok tl =>
      match berSkipLength f (isConstructed s) (s.drop tl) with
      | .ok ll =>
        if s[0]? = some 0 ∧ s[1]? = some 0 then .ok (skip + tl + ll)
        else skipItems f (s.drop (tl + ll)) (skip + tl + ll)
      | r => r
    | r => r
end

/-- src/object/certificate.c:578-592 `skip_t`. The byte after the last one is zero. -/
def skipT (s : List Byte) (tag : Byte) : Option (List Byte) :=
  if s.headD 0 ≠ tag then none
  else
    match s with
    | [] => none
    | _ :: s => some s

/-- src/object/certificate.c:597-616 `skip_tl` -/
def skipTL (s : List Byte) (tag : Byte) : Option (List Byte) :=
  match skipT s tag with
  | none => none
  | some s =>
    match berFetchLength true s with
    | .defn ll _ => some (s.drop ll)
    | .indef => some (s.drop 1)
    | .more => none
    | .bad => none

/-- src/object/certificate.c:618-639 `skip_tlv`; recursion is bounded by twice the number of bytes (proved: enough). -/
def skipTLV (s : List Byte) (tag : Byte) : Option (List Byte) :=
  let constructed := isConstructed s
  match skipT s tag with
  | none => none
  | some s =>
    match berSkipLength (2 * s.length + 1) constructed s with
    | .ok n => some (s.drop n)
    | _ => none

/-- src/object/certificate.c:649-714 `find_signedAttrs`: the bytes from the attributes' length on, and the size computed. (For an
indefinite length, -1 plus 1.) -/
def findSignedAttrs (signedData : List Byte) : Option (List Byte × Nat) := do
  let s ← skipTL signedData 0x30
  let s ← skipTLV s 0x02
  let s ← skipTLV s 0x31
  let s ← skipTLV s 0x30
  let s ← skipTLV s 0xA0
  let s ← skipTL s 0x31
  let s ← skipTL s 0x30
  let s ← skipTLV s 0x02
  let s ← skipTLV s 0x80
  let s ← skipTLV s 0x30
  let s ← skipT s 0xA0
  match berFetchLength true s with
  | .defn ll v => some (s, v + ll)
  | .indef => some (s, 0)
  | .more => none
  | .bad => none

/-- What is given to the signature's verification. -/
inductive Signed where
  | bytes (b : List Byte)
  | err
  /-- Memory after the buffer is read. -/
  | crash
  deriving DecidableEq, Repr

/-- The part of src/object/certificate.c:721-823 `certificate_validate_signature` that feeds the verification. -/
def signedBytes (signedData : List Byte) : Signed :=
  match findSignedAttrs signedData with
  | none => .err
  | some (s, size) => if size > s.length + 1 then .crash else .bytes (0x31 :: (s ++ [0]).take size)

/-! ### Object identifiers -/

/-- The loops of src/asn1/asn1c/OBJECT_IDENTIFIER.c:292-345 `OBJECT_IDENTIFIER_get_arcs` and
src/asn1/asn1c/OBJECT_IDENTIFIER.c:95-122 `OBJECT_IDENTIFIER_get_single_arc`, over all arcs. The accumulator is a 32 bit number; the
check that follows (`accum <= ASN_OID_ARC_MAX`) compares it to 2^32 - 1. -/
def arcsLoop (accum : Nat) (inArc : Bool) : List Byte → Option (List Nat)
  | [] => if inArc then none else some []
  | b :: s =>
    let accum := (accum * 128 + (b &&& 0x7F).toNat) % 2 ^ 32
    if b &&& 0x80 = 0 then
      if accum ≤ 2 ^ 32 - 1 then (arcsLoop 0 false s).map (accum :: ·) else none
    else arcsLoop accum true s

/-- src/asn1/oid.c:22-55 `oid2arcs`, src/asn1/asn1c/OBJECT_IDENTIFIER.c:292-345 `OBJECT_IDENTIFIER_get_arcs` and
src/asn1/asn1c/OBJECT_IDENTIFIER.c:73-93 `OBJECT_IDENTIFIER_get_first_arcs` -/
def oid2arcs (b : List Byte) : Option (List Nat) :=
  match arcsLoop 0 false b with
  | none => none
  | some [] => none
  | some (v :: vs) =>
    if v ≥ 80 then some (2 :: (v - 80) :: vs)
    else if v ≥ 40 then some (1 :: (v - 40) :: vs)
    else some (0 :: v :: vs)

end Verif.Cms
