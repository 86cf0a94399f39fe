import Verif.Res.ModelAddr
/-
Model of the path builder (src/data_structure/path_builder.c), with its memory.
-/
namespace Verif.Uri
open Verif.Res (Byte)

/-- Error codes the callers of this area tell apart. -/
inductive Err where
  | inval
  | nospc
  | notRsync
  | notHttps
  deriving DecidableEq, Repr

/-- Result of a C function: success, an error code, or a crash (memory error or `pr_crit`). -/
inductive R (α : Type) where
  | ok (a : α)
  | err (e : Err)
  | crash
  deriving DecidableEq, Repr

/-- `if (error) return error;` -/
def R.bind {α β} (x : R α) (f : α → R β) : R β :=
  match x with
  | .ok a => f a
  | .err e => .err e
  | .crash => .crash

instance : Monad R where
  pure := .ok
  bind := R.bind

/-- '/' -/
def slash : Byte := 0x2F

/-- `struct path_builder` (src/data_structure/path_builder.h): `mem` is the block `string` points to, as long as
`capacity`. -/
structure PB where
  mem : List Byte
  len : Nat
  deriving DecidableEq, Repr

/-- The string built so far. -/
def PB.str (pb : PB) : List Byte := pb.mem.take pb.len

/-- INITIAL_CAPACITY -/
def initialCapacity : Nat := 128
/-- MAX_CAPACITY -/
def maxCapacity : Nat := 4096

/-- `string[i] = b`; a write out of the block is a crash. -/
def memSet (mem : List Byte) (i : Nat) (b : Byte) : R (List Byte) :=
  if i < mem.length then .ok (mem.set i b) else .crash

/-- `memcpy(string + off, src, n)`, where `src` is what can be read from the source pointer on; reading past it, or
writing past the block, is a crash. -/
def memCpy (mem : List Byte) (off : Nat) (src : List Byte) (n : Nat) : R (List Byte) :=
  if off + n ≤ mem.length ∧ n ≤ src.length then .ok (mem.take off ++ src.take n ++ mem.drop (off + n)) else .crash

/-- src/data_structure/path_builder.c:17-24 `pb_init`. The block is not initialized by `malloc`: zeros here, the
contents are never read. -/
def pbInit : PB := ⟨List.replicate initialCapacity 0, 0⟩

/-- The doubling loop of src/data_structure/path_builder.c:52-67 `pb_grow`. -/
def growCap (cap total : Nat) : Nat :=
  if _h : 0 < cap ∧ 2 * cap < total then growCap (2 * cap) total else 2 * cap
termination_by total - cap
decreasing_by omega

/-- src/data_structure/path_builder.c:52-67 `pb_grow`. -/
def pbGrow (pb : PB) (total : Nat) : R PB :=
  if total > maxCapacity then .err .nospc
  else .ok { pb with mem := pb.mem ++ List.replicate (growCap pb.mem.length total - pb.mem.length) 0 }

/-- src/data_structure/path_builder.c:69-101 `pb_appendn`. `src` is the memory from `addend` on. When a slash is added
the code copies one byte more than asked (`addlen` was incremented), which the terminator then overwrites. -/
def pbAppendn (pb : PB) (src : List Byte) (addlen : Nat) : R PB :=
  if addlen = 0 then .ok pb
  else
    let addSlash := decide (pb.len ≠ 0)
    let addlen := if addSlash then addlen + 1 else addlen
    let total := pb.len + addlen + 1
    do
      let pb ← if total > pb.mem.length then pbGrow pb total else .ok pb
      let mem ← if addSlash then do
          let mem ← memSet pb.mem pb.len slash
          memCpy mem (pb.len + 1) src addlen
        else memCpy pb.mem pb.len src addlen
      let len := pb.len + addlen
      let mem ← memSet mem len 0
      .ok ⟨mem, len⟩

/-- src/data_structure/path_builder.c:103-107 `pb_append`; C strings are lists without NUL, NULL is `none`. -/
def pbAppend (pb : PB) (addend : Option (List Byte)) : R PB :=
  match addend with
  | none => .ok pb
  | some s => pbAppendn pb (s ++ [0]) s.length

/-- The loop of src/data_structure/path_builder.c:129-156 `pb_pop`, from index `i` down to 1. -/
def findSlash (mem : List Byte) : Nat → R (Option Nat)
  | 0 => .ok none
  | i + 1 =>
    match mem[i + 1]? with
    | none => .crash
    | some b => if b = slash then .ok (some (i + 1)) else findSlash mem i

/-- src/data_structure/path_builder.c:129-156 `pb_pop`. -/
def pbPop (pb : PB) (fatal : Bool) : R PB :=
  if pb.len = 0 ∨ (pb.len = 1 ∧ pb.mem[0]? = some slash) then
    if fatal then .crash else .err .inval
  else do
    match ← findSlash pb.mem (pb.len - 1) with
    | some i => do .ok ⟨← memSet pb.mem i 0, i⟩
    | none =>
      match pb.mem[0]? with
      | none => .crash
      | some b =>
        if b = slash then do .ok ⟨← memSet pb.mem 1 0, 1⟩
        else do .ok ⟨← memSet pb.mem 0 0, 0⟩

/-- src/data_structure/path_builder.c:26-50 `pb_init_cache`; `repo` is `config_get_local_repository()`. -/
def pbInitCache (repo : List Byte) (tal subdir : Option (List Byte)) : R PB := do
  let pb ← pbAppend pbInit (some repo)
  let pb ← pbAppend pb tal
  pbAppend pb subdir

end Verif.Uri
