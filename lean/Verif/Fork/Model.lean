import Verif.Rtr.Model
import Mathlib.Data.List.Basic
/-
Threads that write files while another one launches rsync: src/rsync/rsync.c, src/file.c, src/rrdp.c and src/http/http.c, and the standard library's streams.

A stream has a buffer; what's written stays there until it is flushed. `fork` copies the process, and so the buffers; the child's file descriptors are the
parent's, with the same offset. A program that `execvp` replaces loses its buffers; `exit` flushes them (C11, 7.22.4.4).
-/
namespace Verif.Fork
open Verif.Rtr (Byte)

/-- A stream, from `fopen(…, "wb")` on. One that's opened again is another one. -/
abbrev Id := Nat

structure Stream where
  used : Bool
  opened : Bool
  /-- what the program has written -/
  written : List Byte
  /-- what isn't in the file yet -/
  buffer : List Byte
  /-- the file -/
  content : List Byte
  deriving DecidableEq, Repr

structure St where
  streams : Id → Stream
  /-- the children that neither became rsync nor ended: the buffers that they have -/
  children : List (Id → List Byte)

def St.init : St := ⟨fun _ => ⟨false, false, [], [], []⟩, []⟩

def St.set (s : St) (f : Id) (x : Stream) : St := { s with streams := fun g => if g = f then x else s.streams g }

/-- What can happen. -/
inductive Step where
  /-- src/file.c:41-58 `file_write`, of any thread -/
  | fopen (f : Id)
  /-- `fwrite`: src/rrdp.c:577-603 `write_file`, src/http/http.c:89-115 `write_callback` -/
  | fwrite (f : Id) (data : List Byte)
  /-- The library flushes some of a buffer, when it wants. -/
  | flush (f : Id) (n : Nat)
  /-- src/file.c:60-65 `file_close`. (The disk isn't full.) -/
  | fclose (f : Id)
  /-- `fork`, in src/rsync/rsync.c:286-423 `rsync_download`. `log_flush` flushes the standard output and error only. -/
  | fork
  /-- The child's `execvp` succeeds. -/
  | exec (i : Nat)
  /-- It fails, and the child exits: src/rsync/rsync.c:85-101 `handle_child_thread`. -/
  | exit (i : Nat)
  /-- The child is killed: src/rsync/rsync.c:286-423 `rsync_download`. -/
  | kill (i : Nat)
  deriving Repr

def step (s : St) : Step → St
  | .fopen f => if (s.streams f).used then s else s.set f ⟨true, true, [], [], []⟩
  | .fwrite f d =>
    let x := s.streams f
    if x.opened then s.set f { x with written := x.written ++ d, buffer := x.buffer ++ d } else s
  | .flush f n =>
    let x := s.streams f
    if x.opened then s.set f { x with content := x.content ++ x.buffer.take n, buffer := x.buffer.drop n } else s
  | .fclose f =>
    let x := s.streams f
    if x.opened then s.set f { x with content := x.content ++ x.buffer, buffer := [], opened := false } else s
  | .fork => { s with children := s.children ++ [fun f => (s.streams f).buffer] }
  | .exec i => { s with children := s.children.eraseIdx i }
  | .exit i =>
    match s.children[i]? with
    | none => s
    | some c => ⟨fun f => { s.streams f with content := (s.streams f).content ++ c f }, s.children.eraseIdx i⟩
  | .kill i => { s with children := s.children.eraseIdx i }

def run : List Step → St → St
  | [], s => s
  | a :: l, s => run l (step s a)

end Verif.Fork
