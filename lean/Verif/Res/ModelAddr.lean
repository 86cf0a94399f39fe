import Verif.Res.Spec
/-
Model of the IP address decoding. File modelled: src/types/address.c.
`pr_val_err` returns -EINVAL: every error is `none`.
-/
namespace Verif.Res

/-- `BIT_STRING_t`: bytes and number of unused bits (an `int`). -/
structure BitStr where
  buf : List Byte
  unused : Int
  deriving DecidableEq, Repr

/-- src/types/address.c:35-40 `u32_suffix_mask`. -/
def u32SuffixMask (len : Nat) : BitVec 32 :=
  if len < 32 then 0xFFFFFFFF#32 >>> len else 0

/-- memset and memcpy of src/types/address.c:159-190 `prefix4_decode`: the bytes, padded with zeros to 4, as a
number in host byte order. (The code keeps network byte order; `be32_suffix_mask` converts the mask instead.) -/
def addr4Of (buf : List Byte) : BitVec 32 :=
  (buf ++ List.replicate (4 - buf.length) 0).foldl (fun (a : BitVec 32) (b : Byte) => (a <<< 8) ||| b.setWidth 32) 0

/-- `struct ipv4_prefix`, address in host byte order. -/
structure Prefix4 where
  addr : BitVec 32
  len : Nat
  deriving DecidableEq, Repr

/-- src/types/address.c:159-190 `prefix4_decode`. The length is computed as a `size_t` and converted to `int`; it is
negative only for an empty string with unused bits. -/
def prefix4Decode (s : BitStr) : Option Prefix4 :=
  if s.buf.length > 4 then none
  else if s.unused < 0 ∨ 7 < s.unused then none
  else
    let addr := addr4Of s.buf
    let len : Int := 8 * s.buf.length - s.unused
    if len < 0 ∨ 32 < len then none
    else if addr &&& u32SuffixMask len.toNat ≠ 0 then none
    else some ⟨addr, len.toNat⟩

/-- `struct in6_addr`: 16 bytes. -/
abbrev In6 := List Byte

/-- The macro V6_QUADRANT_EDIT (src/types/address.c:69-73). -/
def quadrantEdit (op : Byte → Byte → Byte) (a : In6) (q : Nat) (v : BitVec 32) : In6 :=
  let e (a : In6) (i : Nat) (x : Byte) : In6 := a.modify (4 * q + i) (fun b => op b x)
  e (e (e (e a 0 ((v >>> 24).setWidth 8)) 1 ((v >>> 16).setWidth 8)) 2 ((v >>> 8).setWidth 8)) 3 (v.setWidth 8)

/-- src/types/address.c:77-81 `addr6_set_quadrant`. -/
def setQuadrant (a : In6) (q : Nat) (v : BitVec 32) : In6 := quadrantEdit (fun _ x => x) a q v

/-- src/types/address.c:86-90 `addr6_or_quadrant`. -/
def orQuadrant (a : In6) (q : Nat) (v : BitVec 32) : In6 := quadrantEdit (fun b x => b ||| x) a q v

/-- src/types/address.c:59-66 `addr6_get_quadrant`. -/
def getQuadrant (a : In6) (q : Nat) : BitVec 32 :=
  ((a.getD (4 * q) 0).setWidth 32 <<< 24) ||| ((a.getD (4 * q + 1) 0).setWidth 32 <<< 16) |||
    ((a.getD (4 * q + 2) 0).setWidth 32 <<< 8) ||| (a.getD (4 * q + 3) 0).setWidth 32

/-- src/types/address.c:96-106 `addr6_bitwise_and`. -/
def bitwiseAnd : In6 → In6 → Bool
  | a :: as, b :: bs => if a &&& b ≠ 0 then true else bitwiseAnd as bs
  | _, _ => false

/-- src/types/address.c:113-131 `ipv6_suffix_mask`. -/
def ipv6SuffixMask (len : Nat) (a : In6) : In6 :=
  if len < 32 then
    setQuadrant (setQuadrant (setQuadrant (orQuadrant a 0 (u32SuffixMask len)) 1 0xFFFFFFFF) 2 0xFFFFFFFF) 3 0xFFFFFFFF
  else if len < 64 then
    setQuadrant (setQuadrant (orQuadrant a 1 (u32SuffixMask (len - 32))) 2 0xFFFFFFFF) 3 0xFFFFFFFF
  else if len < 96 then
    setQuadrant (orQuadrant a 2 (u32SuffixMask (len - 64))) 3 0xFFFFFFFF
  else orQuadrant a 3 (u32SuffixMask (len - 96))

/-- `struct ipv6_prefix`. -/
structure Prefix6 where
  addr : In6
  len : Nat
  deriving DecidableEq, Repr

/-- The zero address. -/
def In6.zero : In6 := List.replicate 16 0

/-- src/types/address.c:195-229 `prefix6_decode`. -/
def prefix6Decode (s : BitStr) : Option Prefix6 :=
  if s.buf.length > 16 then none
  else if s.unused < 0 ∨ 7 < s.unused then none
  else
    let addr := s.buf ++ List.replicate (16 - s.buf.length) 0
    let len : Int := 8 * s.buf.length - s.unused
    if len < 0 ∨ 128 < len then none
    else if bitwiseAnd addr (ipv6SuffixMask len.toNat In6.zero) then none
    else some ⟨addr, len.toNat⟩

/-! ### Ranges -/

/-- First loop of src/types/address.c:247-264 `check_encoding4` and inner loop of `check_encoding6`: `mask` goes from
`1 << (k - 1)` down to 1; the `k` at which the loop is left, 0 when `mask` reaches 0. -/
def firstDiff (min max : BitVec 32) : Nat → Nat
  | 0 => 0
  | k + 1 =>
    if (min &&& BitVec.twoPow 32 k) ≠ (max &&& BitVec.twoPow 32 k) then k + 1 else firstDiff min max k

/-- Second loop of src/types/address.c:247-264 `check_encoding4` and inner loop of `__check_encoding6`: true when it
returns 0, that is, finds a bit which is not 0 in `min` or not 1 in `max`. -/
def findsRange (min max : BitVec 32) : Nat → Bool
  | 0 => false
  | k + 1 =>
    if (min &&& BitVec.twoPow 32 k) ≠ 0 ∨ (max &&& BitVec.twoPow 32 k) = 0 then true else findsRange min max k

/-- src/types/address.c:247-264 `check_encoding4`: true is "no error". -/
def checkEncoding4 (min max : BitVec 32) : Bool := findsRange min max (firstDiff min max 32)

/-- `struct ipv4_range`, host byte order; also `struct r4_node`, `struct asn_range`. -/
structure R32 where
  min : BitVec 32
  max : BitVec 32
  deriving DecidableEq, Repr

/-- src/types/address.c:269-290 `range4_decode`, with src/types/address.c:231-240 `check_order4`. -/
def range4Decode (smin smax : BitStr) : Option R32 :=
  match prefix4Decode smin with
  | none => none
  | some p =>
    match prefix4Decode smax with
    | none => none
    | some q =>
      let max := q.addr ||| u32SuffixMask q.len
      if p.addr > max then none
      else if checkEncoding4 p.addr max then some ⟨p.addr, max⟩
      else none

/-- src/types/address.c:292-312 `check_order6`, quadrants `q` to 3, `n` of them: true is "no error". -/
def checkOrder6 (min max : In6) : Nat → Nat → Bool
  | 0, _ => true
  | n + 1, q =>
    if getQuadrant min q > getQuadrant max q then false
    else if getQuadrant min q < getQuadrant max q then true
    else checkOrder6 min max n (q + 1)

/-- src/types/address.c:321-338 `__check_encoding6`, on `n` quadrants beginning with `q`; `k` stands for `mask` in the
first of them. True is "no error". -/
def checkEncoding6Tail (min max : In6) : Nat → Nat → Nat → Bool
  | 0, _, _ => false
  | n + 1, q, k =>
    if findsRange (getQuadrant min q) (getQuadrant max q) k then true
    else checkEncoding6Tail min max n (q + 1) 32

/-- src/types/address.c:340-357 `check_encoding6`, `n` quadrants beginning with `q`. True is "no error". -/
def checkEncoding6 (min max : In6) : Nat → Nat → Bool
  | 0, _ => false
  | n + 1, q =>
    let k := firstDiff (getQuadrant min q) (getQuadrant max q) 32
    if k ≠ 0 then checkEncoding6Tail min max (n + 1) q k else checkEncoding6 min max n (q + 1)

/-- `struct ipv6_range`. -/
structure R6 where
  min : In6
  max : In6
  deriving DecidableEq, Repr

/-- src/types/address.c:362-384 `range6_decode`. -/
def range6Decode (smin smax : BitStr) : Option R6 :=
  match prefix6Decode smin with
  | none => none
  | some p =>
    match prefix6Decode smax with
    | none => none
    | some q =>
      let max := ipv6SuffixMask q.len q.addr
      if !checkOrder6 p.addr max 4 0 then none
      else if checkEncoding6 p.addr max 4 0 then some ⟨p.addr, max⟩
      else none

end Verif.Res
