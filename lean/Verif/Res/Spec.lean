/-
Specification of addresses, ranges and resource sets, independent of the model: numbers, and sets of numbers.
-/
namespace Verif.Res

/-- `unsigned char`. -/
abbrev Byte := BitVec 8

/-- Big endian value of a byte string. -/
def be : List Byte → Nat
  | [] => 0
  | b :: l => b.toNat * 256 ^ l.length + be l

/-- A range of numbers (addresses or AS numbers), both ends included. -/
structure Rng where
  min : Nat
  max : Nat
  deriving DecidableEq, Repr

/-- The number is in the range. -/
def Rng.Has (r : Rng) (n : Nat) : Prop := r.min ≤ n ∧ n ≤ r.max

/-- The number is in one of the ranges. -/
def Covered (l : List Rng) (n : Nat) : Prop := ∃ r ∈ l, r.Has n

/-- RFC 3779, sections 2.2.3.6 and 3.2.3.4: the ranges are in increasing order, and between any two consecutive ones
there is at least one number that belongs to neither (else they would have to be merged); no range is inverted. -/
def Canonical : List Rng → Prop
  | [] => True
  | [r] => r.min ≤ r.max
  | r :: s :: l => r.min ≤ r.max ∧ r.max + 1 < s.min ∧ Canonical (s :: l)

/-- The numbers from `min` to `max` are the addresses of `w` bits that begin with the same `len` bits. -/
def IsPrefix (w len min max : Nat) : Prop :=
  len ≤ w ∧ 2 ^ (w - len) ∣ min ∧ max = min + (2 ^ (w - len) - 1)

/-- The value of a DER INTEGER: two's complement, big endian. -/
def intVal (l : List Byte) : Int :=
  match l with
  | [] => 0
  | b :: _ => if b.toNat < 128 then be l else (be l : Int) - 256 ^ l.length

end Verif.Res
