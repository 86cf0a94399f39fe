import Verif.Uri.ModelPath
/-
Model of the reversal of a path (src/data_structure/path_builder.c:158-189), with its memory.
-/
namespace Verif.Uri
open Verif.Res (Byte)

/-- `string[i]`; a read out of the block is a crash. -/
def memGet (mem : List Byte) (i : Nat) : R Byte :=
  match mem[i]? with
  | some b => .ok b
  | none => .crash

/-- The loop of src/data_structure/path_builder.c:158-169 `reverse_string`. The pointers `b` and `e` are indexes in the
block. -/
def revLoop (mem : List Byte) (b e : Nat) : R (List Byte) :=
  if b < e then do
    let tmp ← memGet mem b
    let x ← memGet mem e
    let mem ← memSet mem b x
    let mem ← memSet mem e tmp
    revLoop mem (b + 1) (e - 1)
  else .ok mem
termination_by e - b

/-- src/data_structure/path_builder.c:158-169 `reverse_string`, of the `len` characters at `off`. When `len` is 0, the
pointer `e` is the one before `str`, so the loop doesn't run; that a pointer before the block may not even be computed,
according to the standard, is not modelled. -/
def reverseString (mem : List Byte) (off len : Nat) : R (List Byte) :=
  if len = 0 then .ok mem else revLoop mem off (off + len - 1)

/-- The loop of src/data_structure/path_builder.c:172-189 `pb_reverse`, and what follows it. After a slash, `max` is
increased twice. -/
def reverseLoop (mem : List Byte) (len min max : Nat) : R (List Byte) :=
  if max < len then do
    let b ← memGet mem max
    if b = slash then do
      let mem ← reverseString mem min (max - min)
      reverseLoop mem len (max + 1) (max + 2)
    else reverseLoop mem len min (max + 1)
  else reverseString mem min (len - min)
termination_by len - max

/-- src/data_structure/path_builder.c:172-189 `pb_reverse`. -/
def pbReverse (pb : PB) : R PB := do
  let mem ← reverseString pb.mem 0 pb.len
  let mem ← reverseLoop mem pb.len 0 1
  .ok { pb with mem := mem }

end Verif.Uri
