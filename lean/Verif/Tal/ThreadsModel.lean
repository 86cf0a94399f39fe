import Verif.Rtr.Model
/-
One validation cycle: which TAL files there are, their threads, and what becomes of their results.

Not modelled, and arbitrary: what the file system says, whether threads can be created, what the validation of each TAL yields
(`do_file_validation`, C51 for its traversal), and which threads have ended at a given moment. Reading or freeing memory that was freed,
and freeing memory which a running thread uses, is `ub`. `pthread_join` does not fail, memory does not run out.
-/
namespace Verif.Tal
open Verif.Rtr (Table Byte)

/-- A result, or undefined behaviour. -/
inductive Res (α : Type) where
  | ub
  | ok (a : α)
  deriving DecidableEq, Repr

/-- A NUL-terminated string, without the NUL. -/
abbrev Str := List Byte

/-- src/common.c:107-144 `process_file`: `strrchr(s, '.')`, from the dot on. -/
def strrchrDot : Str → Option Str
  | [] => none
  | c :: s =>
    match strrchrDot s with
    | some r => some r
    | none => if c = 46#8 then some (c :: s) else none

/-- ".tal" -/
def talExt : Str := [46#8, 116#8, 97#8, 108#8]

/-- What the configured location is. -/
inductive Location where
  /-- `stat` fails. -/
  | unreadable
  /-- It's not a directory. -/
  | file
  /-- `opendir` fails. -/
  | closed
  /-- A directory; the names in it, and whether `readdir` fails after them. -/
  | dir (names : List Str) (fails : Bool)

/-- The world. -/
structure World where
  location : Str
  kind : Location
  /-- `realpath` -/
  realpath : Str → Option Str
  /-- `pthread_create` for that file. -/
  spawns : Str → Bool
  /-- What `do_file_validation` leaves in the thread's `db`; `none` if it leaves an error. -/
  validate : Str → Option Table
  /-- The thread for that file ended before the main thread cleans up. -/
  ended : Str → Bool

/-- `struct validation_thread` -/
structure Thread where
  talFile : Str
  deriving DecidableEq, Repr

/-- The threads, in the order in which they were allocated (freed ones are `none`), and the list `threads`. -/
structure St where
  heap : List (Option Thread)
  threads : List Nat
  deriving DecidableEq, Repr

/-- src/object/tal.c:469-492 `spawn_tal_thread`. The error is `false`. -/
def spawnTalThread (w : World) (talFile : Str) (st : St) : St × Bool :=
  let id := st.heap.length
  let threads := id :: st.threads
  if w.spawns talFile then (⟨st.heap ++ [some ⟨talFile⟩], threads⟩, true)
  else (⟨st.heap ++ [none], threads⟩, false)

/-- src/common.c:107-144 `process_file`; counts matching files. The error is `false`. -/
def processFile (w : World) (name : Str) (found : Nat) (st : St) : St × Nat × Bool :=
  if strrchrDot name ≠ some talExt then (st, found, true)
  else
    match w.realpath (w.location ++ [47#8] ++ name) with
    | none => (st, found + 1, false)
    | some path => ((spawnTalThread w path st).1, found + 1, (spawnTalThread w path st).2)

/-- The loop of src/common.c:146-188 `process_dir_files`. -/
def dirLoop (w : World) : List Str → Nat → St → St × Nat × Bool
  | [], found, st => (st, found, true)
  | name :: names, found, st =>
    match processFile w name found st with
    | (st, found, false) => (st, found, false)
    | (st, found, true) => dirLoop w names found st

/-- src/common.c:197-216 `foreach_file` with src/common.c:146-188 `process_dir_files`, for ".tal", `empty_err` and `spawn_tal_thread`.
(A directory has names.) -/
def foreachFile (w : World) (st : St) : St × Bool :=
  match w.kind with
  | .unreadable => (st, false)
  | .file => spawnTalThread w w.location st
  | .closed => (st, false)
  | .dir names fails =>
    match dirLoop w names 0 st with
    | (st, _, false) => (st, false)
    | (st, found, true) => (st, !fails && found != 0)

/-- The loop in src/object/tal.c:494-551 `perform_standalone_validation` that frees the threads after an error. -/
def freeAll (w : World) : List Nat → List (Option Thread) → Res Unit
  | [], _ => .ok ()
  | id :: ids, heap =>
    match heap[id]?.join with
    | none => .ub
    | some t => if w.ended t.talFile then freeAll w ids (heap.set id none) else .ub

/-- Its second loop, which joins. The accumulators are `db` (NULL is `none`) and `error` (`true` if there is one). -/
def joinAll (w : World) : List Nat → List (Option Thread) → Option Table → Bool → Res (Option Table × Bool)
  | [], _, db, error => .ok (db, error)
  | id :: ids, heap, db, error =>
    match heap[id]?.join with
    | none => .ub
    | some t =>
      let error := match w.validate t.talFile with | none => true | some _ => error
      let db := if error then db else
        match db, w.validate t.talFile with
        | none, r => r
        | some d, some r => some (d.join r)
        | some d, none => some d
      joinAll w ids (heap.set id none) db error

/-- src/object/tal.c:494-551 `perform_standalone_validation` -/
def performStandaloneValidation (w : World) : Res (Option Table) :=
  match foreachFile w ⟨[], []⟩ with
  | (st, false) =>
    match freeAll w st.threads st.heap with
    | .ub => .ub
    | .ok () => .ok none
  | (st, true) =>
    match joinAll w st.threads st.heap none false with
    | .ub => .ub
    | .ok (_, true) => .ok none
    | .ok (db, false) => .ok db

end Verif.Tal
