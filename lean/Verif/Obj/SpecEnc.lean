import Verif.Res.Spec
/-
DER, as a function: how an issuer writes elements, integers and bit strings (X.690, 8 and 10).
-/
namespace Verif.Obj
open Verif.Res (Byte)

/-- The octets of a number, most significant first; none for zero. -/
def octets (n : Nat) : List Byte := if n = 0 then [] else octets (n / 256) ++ [BitVec.ofNat 8 n]

/-- Length octets. -/
def derLen (n : Nat) : List Byte :=
  if n < 128 then [BitVec.ofNat 8 n] else BitVec.ofNat 8 (128 + (octets n).length) :: octets n

/-- An element: the identifier octet, and the contents. -/
def tlv (t : Byte) (c : List Byte) : List Byte := t :: (derLen c.length ++ c)

/-- SEQUENCE, and SEQUENCE OF. -/
def derSeq (c : List Byte) : List Byte := tlv 0x30 c

/-- The contents of an INTEGER that is not negative: a zero comes first if the number alone would look negative. -/
def intOctets (n : Nat) : List Byte :=
  match octets n with
  | [] => [0]
  | b :: bs => if 128 ≤ b.toNat then 0 :: b :: bs else b :: bs

def derInt (n : Nat) : List Byte := tlv 2 (intOctets n)

def derOctets (b : List Byte) : List Byte := tlv 4 b

def derNull : List Byte := tlv 5 []

/-- The octets that the first `len` bits of an address of `w` bits are in. -/
def bitOctets (w addr len : Nat) : List Byte := (List.range ((len + 7) / 8)).map fun i => BitVec.ofNat 8 (addr / 2 ^ (w - 8 * (i + 1)))

/-- The number of bits of the last octet that are not part of the string. -/
def unusedBits (len : Nat) : Nat := 8 * ((len + 7) / 8) - len

/-- BIT STRING: the first `len` bits of the address. (The bits of the address that follow are zero.) -/
def derPrefix (w addr len : Nat) : List Byte := tlv 3 (BitVec.ofNat 8 (unusedBits len) :: bitOctets w addr len)

end Verif.Obj
