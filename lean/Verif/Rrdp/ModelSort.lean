import Verif.Uri.ModelUri
/-
Model of the notification's delta list and of the hash attributes (src/rrdp.c).
-/
namespace Verif.Rrdp
open Verif.Res (Byte)
open Verif.Uri

/-- src/rrdp.c:44-49 `struct file_metadata`; the hash is `none` when it is omitted. -/
structure Meta where
  uri : Uri
  hash : Option (List Byte)
  deriving DecidableEq, Repr

/-- src/rrdp.c:52-55 `struct notification_delta`. Serials are unbounded, and were checked not to be negative. -/
structure Delta where
  serial : Nat
  info : Meta
  deriving DecidableEq, Repr

/-- Outcomes of the functions below. `stuck`: the loop did not end. -/
inductive Sorted where
  | ok (ds : List Delta)
  | err
  | crash
  | stuck
  deriving DecidableEq, Repr

/-- OpenSSL's `BN_get_word`: all ones if the number is too big. -/
def bnGetWord (n : Nat) : Nat := if n < 2 ^ 64 then n else 2 ^ 64 - 1

/-- src/rrdp.c:664-700 `swap_until_sorted`; the loop runs at most `fuel` times. `BN_sub` works. -/
def swapUntilSorted (fuel : Nat) (ds : List Delta) (i : Nat) (min max : Nat) : Sorted :=
  match fuel with
  | 0 => .stuck
  | fuel + 1 =>
    match ds[i]? with
    | none => .crash
    | some d =>
      if d.serial < min then .err
      else if max < d.serial then .err
      else
        let t := bnGetWord (d.serial - min)
        if i = t then .ok ds
        else
          match ds[t]? with
          | none => .crash
          | some e =>
            if e.serial = d.serial then .err
            else swapUntilSorted fuel ((ds.set t d).set i e) i min max

/-- The loop of src/rrdp.c:702-750 `sort_deltas`, from index `i` on; `k` iterations left. -/
def sortLoop (min max : Nat) : Nat → Nat → List Delta → Sorted
  | 0, _, ds => .ok ds
  | k + 1, i, ds =>
    match swapUntilSorted (ds.length + 1) ds i min max with
    | .ok ds => sortLoop min max k (i + 1) ds
    | r => r

/-- src/rrdp.c:702-750 `sort_deltas`. `max` is the notification's serial; `none`: it has none, `BN_dup` returns NULL. -/
def sortDeltas (max : Option Nat) (ds : List Delta) : Sorted :=
  if ds.length = 0 then .ok ds
  else
    match max with
    | none => .err
    | some max =>
      if max < ds.length - 1 then .err
      else sortLoop (max - (ds.length - 1)) max ds.length 0 ds

/-! ### Hashes -/

/-- src/rrdp.c:319-329 `hexchar2uint` -/
def hexchar2uint (c : Byte) : Nat :=
  if 0x30 ≤ c ∧ c ≤ 0x39 then c.toNat - 0x30
  else if 0x61 ≤ c ∧ c ≤ 0x66 then c.toNat - 0x61 + 10
  else if 0x41 ≤ c ∧ c ≤ 0x46 then c.toNat - 0x41 + 10
  else 32

/-- The loop of src/rrdp.c:331-361 `hexstr2sha256`; reads the text's bytes 2i and 2i+1, `n` times. -/
def hexLoop (s : List Byte) : Nat → Nat → Option (Option (List Byte))
  | 0, _ => some (some [])
  | n + 1, i =>
    match s[2 * i]?, s[2 * i + 1]? with
    | some a, some b =>
      if hexchar2uint a > 15 then some none
      else if hexchar2uint b > 15 then some none
      else
        match hexLoop s n (i + 1) with
        | some (some r) => some (some ((BitVec.ofNat 8 (hexchar2uint a) <<< 4 ||| BitVec.ofNat 8 (hexchar2uint b)) :: r))
        | x => x
    | _, _ => none

/-- src/rrdp.c:331-361 `hexstr2sha256`; the outer `none` is a read out of bounds, the inner one an error. -/
def hexstr2sha256 (s : List Byte) : Option (Option (List Byte)) :=
  if s.length ≠ 64 then some none else hexLoop s 32 0

end Verif.Rrdp
