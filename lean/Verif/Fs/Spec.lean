import Verif.Fs.Model
import Verif.Tal.SanitizeProps
/-
What's expected of files and directories.
-/
namespace Verif.Fs
open Verif.Rtr (Byte)

/-- A tree: whatever there is, is in a directory; where paths start is one. -/
structure Tree.Wf (t : Tree) : Prop where
  root : ∀ abs, t.node (abs, []) = some .dir
  parent : ∀ abs l n, (t.node (abs, l ++ [n])).isSome → t.node (abs, l) = some .dir

/-- `l` is `m`, or one of the directories above it. -/
def Above (l m : Loc) : Prop := l.1 = m.1 ∧ l.2 <+: m.2

/-- The only difference is that directories were created, on the way to `target`. -/
def OnlyCreated (t t' : Tree) (target : Loc) : Prop :=
  t'.denied = t.denied ∧ t'.readonly = t.readonly ∧
  ∀ l, t'.node l = t.node l ∨ (Above l target ∧ t.node l = none ∧ t'.node l = some .dir)

/-- The directory that's wanted: the path, or what's before its last slash. -/
def Target (path : List Char) (includeBasename : Bool) (target : List Char) : Prop :=
  if includeBasename then target = path else ∃ name, path = target ++ '/' :: name ∧ '/' ∉ name

/-- Nothing stands between the file and what's in it, up to its byte number `n`. -/
structure Readable (f : File) (n : Nat) : Prop where
  opens : f.fopen = none
  stats : f.fstat = none
  regular : f.regular = true
  reads : ∀ k, f.failsAt = some k → n ≤ k

/-- The numbers that the system calls leave in errno aren't 0. -/
structure File.Errnos (f : File) : Prop where
  fopen : f.fopen ≠ some 0
  fstat : f.fstat ≠ some 0

/-- libcrypto does its job. -/
structure Evp.Works (e : Evp) : Prop where
  known : e.known = true
  init : e.init = true
  update : ∀ i, e.update i = true
  final : e.final = true

/-- A decoder of base64: what a text means (which doesn't depend on its LFs, nor on the white space at its start), and no 4 characters mean more than 3 bytes. What the BIO yields, in as many steps as it likes, is what
the text means, provided that its lines have at most 80 characters. -/
structure Decoder where
  meaning : List Byte → List Byte
  bio : List Byte → Bio
  lfs : ∀ t, meaning (t.filter (· ≠ Verif.Tal.lf)) = meaning t
  white : ∀ c t, Verif.Tal.White c → meaning (c :: t) = meaning t
  short : ∀ t, 4 * (meaning t).length ≤ 3 * t.length
  yields : ∀ t, Verif.Tal.MaxLine 80 t → (bio t).rest = meaning t
  moves : ∀ t rest len, rest ≠ [] → 0 < len → 0 < (bio t).step rest len

/-- A run that got to its end. -/
def Run.Completes {α : Type} (r : Run α) (v : List Char) : Prop := r.version = v ∧ r.teardown = some .done

/-- The runs, one after the other. -/
def runs {α : Type} (l : List (Run α)) (d : Disk α) : Disk α := l.foldl (fun d r => r.exec d) d

/-- What the files would be, had nothing been removed. -/
def kept {α : Type} (l : List (Run α)) (fs : List α) : List α := l.foldl (fun fs r => r.stores fs) fs

end Verif.Fs
