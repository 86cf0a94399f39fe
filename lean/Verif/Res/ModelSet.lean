import Verif.Res.ModelAddr
/-
Model of the resource sets. Files modelled: src/sorted_array.c, src/resource/asn.c, src/resource/ip4.c,
src/resource/ip6.c. Sizes are `unsigned int` in C; they are natural numbers here, on the assumption that no set has
2^31 elements (the realloc would need more than 16 GB).
-/
namespace Verif.Res

/-- `enum sarray_comparison` (src/sorted_array.h:22-31). -/
inductive Cmp | equal | child | parent | left | right | adjLeft | adjRight | intersection
  deriving DecidableEq, Repr

/-- src/resource/asn.c:10-34 `asn_cmp` and, with the same text, src/resource/ip4.c:10-34 `r4_cmp`. -/
def cmp32 (a b : R32) : Cmp :=
  if a.min = b.min ∧ a.max = b.max then .equal
  else if a.min ≤ b.min ∧ b.max ≤ a.max then .child
  else if b.min ≤ a.min ∧ a.max ≤ b.max then .parent
  else if b.min ≠ 0 ∧ a.max = b.min - 1 then .adjRight
  else if a.max < b.min then .right
  else if a.min ≠ 0 ∧ b.max = a.min - 1 then .adjLeft
  else if b.max < a.min then .left
  else .intersection

/-- memcmp, as called by src/resource/ip6.c:5-10 `addr_cmp`: its sign. -/
def memcmp : List Byte → List Byte → Ordering
  | x :: xs, y :: ys => if x < y then .lt else if y < x then .gt else memcmp xs ys
  | _, _ => .eq

/-- src/resource/ip6.c:13-17 `addr_equals`. -/
def addrEquals (a b : In6) : Bool := memcmp a b == .eq
/-- src/resource/ip6.c:20-24 `addr_le`. -/
def addrLe (a b : In6) : Bool := memcmp a b != .gt
/-- src/resource/ip6.c:27-31 `addr_lt`. -/
def addrLt (a b : In6) : Bool := memcmp a b == .lt

/-- The loop of src/resource/ip6.c:34-50 `addr_is_successor`; `i + 1` bytes are left to do. The result is `a_plus_1`,
none when the loop ends without a byte to increment. -/
def incrAddr (a : In6) : Nat → Option In6
  | 0 => none
  | i + 1 =>
    if a.getD i 0 ≠ 255 then some (a.modify i (· + 1))
    else incrAddr (a.set i 0) i

/-- src/resource/ip6.c:34-50 `addr_is_successor`. -/
def addrIsSuccessor (a b : In6) : Bool :=
  match incrAddr a 16 with
  | none => false
  | some c => memcmp c b == .eq

/-- src/resource/ip6.c:52-76 `r6_cmp`. -/
def cmp6 (a b : R6) : Cmp :=
  if addrEquals a.min b.min && addrEquals a.max b.max then .equal
  else if addrLe a.min b.min && addrLe b.max a.max then .child
  else if addrLe b.min a.min && addrLe a.max b.max then .parent
  else if addrIsSuccessor a.max b.min then .adjRight
  else if addrLt a.max b.min then .right
  else if addrIsSuccessor b.max a.min then .adjLeft
  else if addrLt b.max a.min then .left
  else .intersection

/-- src/resource/ip4.c:36-41 `pton`. -/
def pton4 (p : Prefix4) : R32 := ⟨p.addr, p.addr ||| u32SuffixMask p.len⟩

/-- src/resource/ip6.c:78-84 `ptor`. -/
def ptor6 (p : Prefix6) : R6 := ⟨p.addr, ipv6SuffixMask p.len p.addr⟩

/-- src/sorted_array.c:65-94 `compare`: true is "can be added". -/
def sarrayCompare {α} (cmp : α → α → Cmp) (l : List α) (x : α) : Bool :=
  match l.getLast? with
  | none => true
  | some last => cmp last x == .right

/-- src/sorted_array.c:96-114 `sarray_add`. -/
def sarrayAdd {α} (cmp : α → α → Cmp) (l : List α) (x : α) : Option (List α) :=
  if sarrayCompare cmp l x then some (l ++ [x]) else none

/-- The loop of src/sorted_array.c:122-162 `sarray_contains`. `none` is an access outside of the array. -/
def sarraySearch {α} (cmp : α → α → Cmp) (l : List α) (x : α) (left right : Nat) : Option Bool :=
  if h : left ≤ right then
    let mid := left + (right - left) / 2
    match l[mid]? with
    | none => none
    | some e =>
      match cmp e x with
      | .left | .adjLeft => if mid = 0 then some false else sarraySearch cmp l x left (mid - 1)
      | .right | .adjRight => if mid = l.length - 1 then some false else sarraySearch cmp l x (mid + 1) right
      | .equal | .child => some true
      | .parent | .intersection => some false
  else some false
termination_by right + 1 - left
decreasing_by all_goals omega

/-- src/sorted_array.c:122-162 `sarray_contains`; the array pointer may be NULL. -/
def sarrayContains {α} (cmp : α → α → Cmp) (l : Option (List α)) (x : α) : Option Bool :=
  match l with
  | none => some false
  | some l => if l.length = 0 then some false else sarraySearch cmp l x 0 (l.length - 1)

end Verif.Res
