import Verif.Cmem.Model
/-
C209: what's meant.
-/
namespace Verif.Cmem
open Verif.Heap

/-- When the program has ended. -/
def finally_ (os : List Opt) (args : List Arg) (hasPayload valid : Bool) (times : Nat) : H := (program os args hasPayload valid times (H.init fun _ => 0)).2

/-- How many of a file's options are null. -/
def nullsOf : List (Option (Nat × Json) × Bool) → Nat
  | [] => 0
  | (some (_, .null), _) :: l => nullsOf l + 1
  | _ :: l => nullsOf l

/-- How many options the files say are null. -/
def nulls : List Arg → Nat
  | [] => 0
  | .file (some f) :: l => nullsOf f + nulls l
  | _ :: l => nulls l

end Verif.Cmem
