import Verif.Uri.ModelUri
/-
Model of how `--mode=print` finds the document: src/print_file.c, from `__rsync2bio` to `filename2bio`.
Simplifications: memory allocations succeed; rsync (src/rsync/rsync.c:286-423 `rsync_download`) is a function that says whether it downloaded.
-/
namespace Verif.Print.Source
open Verif.Res (Byte)
open Verif.Uri

/-- What is done to the outside. -/
inductive Act
  /-- mkdtemp(): a new directory -/
  | mkdtemp (dir : List Byte)
  /-- rsync, from a URL to a path (retries included) -/
  | rsync (src dst : List Byte)
  /-- unlink() or rmdir() -/
  | remove (path : List Byte)
  deriving DecidableEq, Repr

/-- What the BIO reads. -/
inductive Src
  | stdin
  | file (path : List Byte)
  deriving DecidableEq, Repr

/-- The configuration (options `--tal` and `--local-repository`), and what the outside does. -/
structure Env where
  tal : Option (List Byte)
  repo : Option (List Byte)
  /-- the name that `mkdtemp` makes of "/tmp/fort-XXXXXX"; `none`: it fails -/
  tmp : Option (List Byte)
  /-- the result of `rsync_download` -/
  rsync : List Byte → List Byte → Int

/-- `strrchr(s, '/') + 1`; `none` if there's no slash. -/
def afterLastSlash : List Byte → Option (List Byte)
  | [] => none
  | c :: s =>
    match afterLastSlash s with
    | some t => some t
    | none => if c = slash then some s else none

/-- src/print_file.c:20-32 `__rsync2bio` -/
def rsync2bio0 (e : Env) (src dst : List Byte) : List Act × Option Src :=
  if e.rsync src dst ≠ 0 then ([.rsync src dst], none) else ([.rsync src dst], some (.file dst))

/-- src/print_file.c:34-64 `rsync2bio_tmpdir`. Without slash, it's NULL + 1. -/
def rsync2bioTmpdir (e : Env) (src : List Byte) : R (List Act × Option Src) :=
  match e.tmp with
  | none => .ok ([], none)
  | some dir =>
    match pbAppend pbInit (some dir) with
    | .crash => .crash
    | .err _ => .ok ([.mkdtemp dir], none)
    | .ok pb =>
      match afterLastSlash src with
      | none => .crash
      | some name =>
        match pbAppend pb (some name) with
        | .crash => .crash
        | .err _ => .ok ([.mkdtemp dir], none)
        | .ok pb =>
          let r := rsync2bio0 e src pb.str
          .ok (.mkdtemp dir :: r.1, r.2)

/-- The TAL's name in src/print_file.c:66-88 `rsync2bio_cache`. -/
def talName (tal : List Byte) : List Byte :=
  match afterLastSlash tal with
  | some t => t
  | none => tal

/-- src/print_file.c:66-88 `rsync2bio_cache` -/
def rsync2bioCache (e : Env) (tal repo src : List Byte) : R (List Act × Option Src) :=
  match uriCreate repo (some (talName tal)) .rsync none src with
  | .crash => .crash
  | .err _ => .ok ([], none)
  | .ok u => .ok (rsync2bio0 e u.global u.loc)

/-- src/print_file.c:90-96 `rsync2bio` -/
def rsync2bio (e : Env) (src : List Byte) : R (List Act × Option Src) :=
  match e.tal, e.repo with
  | some tal, some repo => rsync2bioCache e tal repo src
  | _, _ => rsync2bioTmpdir e src

/-- src/print_file.c:98-108 `filename2bio`; "-" is 0x2D. Its argument is the configuration's `payload`. -/
def filename2bio (e : Env) (filename : Option (List Byte)) : R (List Act × Option Src) :=
  match filename with
  | none => .ok ([], some .stdin)
  | some f =>
    if f = [0x2D] then .ok ([], some .stdin)
    else if startsWith f rsyncPrefix then rsync2bio e f
    else .ok ([], some (.file f))

end Verif.Print.Source
