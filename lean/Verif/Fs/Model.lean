import Verif.Tal.FileModel
/-
Files and directories: src/common.c, src/file.c, src/crypto/hash.c, src/crypto/base64.c, src/rrdp.c (`write_file`), src/cache/local_cache.c (the metafile).
Allocations don't fail (`pmalloc` panics).
-/
namespace Verif.Fs
open Verif.Rtr (Byte)

/-! ### Directories -/

/-- A path's name. -/
abbrev Name := List Char

/-- What a path means: whether it's absolute, and its names. There are no symbolic links, and no "." or "..". -/
abbrev Loc := Bool × List Name

/-- Files, or directories. -/
inductive Kind where
  | dir
  | file
  deriving DecidableEq, Repr

/-- The file system, as `stat` and `mkdir` see it: the nodes, the directories that can't be searched, and the ones that can't be written. -/
structure Tree where
  node : Loc → Option Kind
  denied : Loc → Bool
  readonly : Loc → Bool

/-- errno -/
abbrev ENOENT : Nat := 2
abbrev EACCES : Nat := 13
abbrev EEXIST : Nat := 17
abbrev ENOTDIR : Nat := 20
abbrev EINVAL : Nat := 22

/-- The parts between slashes; `cur` is the one that's being read. -/
def split (cur : Name) : List Char → List Name
  | [] => [cur]
  | c :: s => if c = '/' then cur :: split [] s else split (cur ++ [c]) s

/-- The names of a path. -/
def comps (s : List Char) : List Name := (split [] s).filter (fun n => n ≠ [])

/-- What a path means. -/
def loc (s : List Char) : Loc := (s.head? = some '/', comps s)

/-- The kernel's walk. -/
def look (t : Tree) (abs : Bool) (seen : List Name) : List Name → Except Nat Kind
  | [] =>
    match t.node (abs, seen) with
    | none => .error ENOENT
    | some k => .ok k
  | n :: rest =>
    match t.node (abs, seen) with
    | none => .error ENOENT
    | some .file => .error ENOTDIR
    | some .dir => if t.denied (abs, seen) then .error EACCES else look t abs (seen ++ [n]) rest

/-- `stat` -/
def stat (t : Tree) (s : List Char) : Except Nat Kind :=
  if s = [] then .error ENOENT
  else
    match look t (loc s).1 [] (loc s).2 with
    | .ok .file => if s.getLast? = some '/' then .error ENOTDIR else .ok .file
    | r => r

/-- The node is there from now on. -/
def Tree.add (t : Tree) (l : Loc) : Tree := { t with node := fun m => if m = l then some .dir else t.node m }

/-- `mkdir` -/
def mkdir (t : Tree) (s : List Char) : Except Nat Tree :=
  if s = [] then .error ENOENT
  else
    match (loc s).2.getLast? with
    | none => .error EEXIST
    | some _ =>
      match look t (loc s).1 [] (loc s).2.dropLast with
      | .error e => .error e
      | .ok .file => .error ENOTDIR
      | .ok .dir =>
        if t.denied ((loc s).1, (loc s).2.dropLast) then .error EACCES
        else if (t.node (loc s)).isSome then .error EEXIST
        else if t.readonly ((loc s).1, (loc s).2.dropLast) then .error EACCES
        else .ok (t.add (loc s))

/-- src/common.c:246-266 `dir_exists`; `pr_op_err_st` yields -EINVAL. -/
def dirExists (t : Tree) (s : List Char) : Int :=
  match stat t s with
  | .error e => if e = ENOENT then 0 else e
  | .ok .file => -22
  | .ok .dir => 1

/-- src/common.c:268-283 `create_dir` -/
def createDir (t : Tree) (s : List Char) : Int × Tree :=
  match mkdir t s with
  | .ok t => (0, t)
  | .error e => if e ≠ EEXIST then (e, t) else (0, t)

/-- The loop of src/common.c:286-323 `mkdir_p`, and the call after it; `done` is what's before `i`. -/
def mkdirLoop (t : Tree) (done : List Char) : List Char → Int × Tree
  | [] => createDir t done
  | c :: rest =>
    if c = '/' then
      match createDir t done with
      | (r, t) => if r ≠ 0 then (r, t) else mkdirLoop t (done ++ [c]) rest
    else mkdirLoop t (done ++ [c]) rest

/-- `strrchr(localuri, '/')`: what's before it. -/
def beforeLastSlash (s : List Char) : Option (List Char) :=
  match s.reverse.dropWhile (fun c => c ≠ '/') with
  | [] => none
  | _ :: r => some r.reverse

/-- src/common.c:286-323 `mkdir_p`. `none`: out of bounds (`localuri[1]` of an empty string; if the slash that was removed was the first character, then what's after it is still there). -/
def mkdirP (t : Tree) (path : List Char) (includeBasename : Bool) : Option (Int × Tree) :=
  match if includeBasename then some path else beforeLastSlash path with
  | none => some (0, t)
  | some localuri =>
    let result := dirExists t localuri
    if result > 0 then some (0, t)
    else if result < 0 then some (result, t)
    else
      match localuri with
      | [] => if includeBasename then none else some (createDir t [])
      | c :: rest => some (mkdirLoop t [c] rest)

/-! ### Reading files -/

/-- What's held: streams, buffers, digest contexts. -/
structure Held where
  streams : Nat := 0
  buffers : Nat := 0
  contexts : Nat := 0
  deriving DecidableEq, Repr

/-- A file, as it's found: `fopen`, `fstat`, whether it's regular, `st_size`, `st_blksize`, the content while it's read, and where reading fails, if it does. -/
structure File where
  fopen : Option Nat
  fstat : Option Nat
  regular : Bool
  size : Nat
  blksize : Nat
  content : List Byte
  failsAt : Option Nat

/-- An open stream: what wasn't read, how much can be read until it fails, and the flags. -/
structure Stream where
  rest : List Byte
  ok : Option Nat
  eof : Bool
  err : Bool

/-- src/file.c:9-39 `file_open`: `fclose` releases the stream. -/
def fileOpen (f : File) (h : Held) : Except Int Stream × Held :=
  match f.fopen with
  | some e => (.error e, h)
  | none =>
    let h := { h with streams := h.streams + 1 }
    match f.fstat with
    | some e => (.error e, { h with streams := h.streams - 1 })
    | none => if !f.regular then (.error (-22), { h with streams := h.streams - 1 }) else (.ok ⟨f.content, f.failsAt, false, false⟩, h)

/-- `fread(buffer, 1, n, file)` -/
def fread (s : Stream) (n : Nat) : List Byte × Stream :=
  let got := s.rest.take n
  match s.ok with
  | some k =>
    if k < n ∧ k ≤ s.rest.length then (s.rest.take k, ⟨s.rest.drop k, some 0, s.eof, true⟩)
    else (got, ⟨s.rest.drop n, some (k - got.length), s.eof || decide (got.length < n), s.err⟩)
  | none => (got, ⟨s.rest.drop n, none, s.eof || decide (got.length < n), s.err⟩)

/-- src/file.c:67-114 `file_load`: the buffer's content. `ferror` isn't 0. -/
def fileLoad (f : File) (h : Held) : Except Int (List Byte) × Held :=
  match fileOpen f h with
  | (.error e, h) => (.error e, h)
  | (.ok s, h) =>
    let h := { h with buffers := h.buffers + 1 }
    match fread s f.size with
    | (got, s) =>
      if got.length < f.size then
        if s.err then (.error 1, { h with buffers := h.buffers - 1, streams := h.streams - 1 })
        else (.error (-22), { h with buffers := h.buffers - 1, streams := h.streams - 1 })
      else (.ok got, { h with streams := h.streams - 1 })

/-- What libcrypto's digest functions answer. -/
structure Evp where
  known : Bool
  init : Bool
  update : Nat → Bool
  final : Bool

/-- The loop of src/crypto/hash.c:38-93 `hash_local_file`: what was given to the context. The first argument bounds the number of iterations. -/
def hashLoop (evp : Evp) (blk : Nat) : Nat → Nat → Stream → List Byte → Option (Except Int (List Byte))
  | 0, _, _, _ => none
  | fuel + 1, i, s, acc =>
    match fread s blk with
    | (got, s) =>
      if s.err then some (.error 1)
      else if !evp.update i then some (.error (-22))
      else if !s.eof then hashLoop evp blk fuel (i + 1) s (acc ++ got)
      else some (.ok (acc ++ got))

/-- src/crypto/hash.c:38-93 `hash_local_file`; `digest` is SHA-256. `none`: it doesn't end. -/
def hashLocalFile (digest : List Byte → List Byte) (evp : Evp) (fuel : Nat) (f : File) (h : Held) : Option (Except Int (List Byte) × Held) :=
  if !evp.known then some (.error (-22), h)
  else
    match fileOpen f h with
    | (.error e, h) => some (.error e, h)
    | (.ok s, h) =>
      let h := { h with buffers := h.buffers + 1, contexts := h.contexts + 1 }
      let released := { h with buffers := h.buffers - 1, contexts := h.contexts - 1, streams := h.streams - 1 }
      if !evp.init then some (.error (-22), released)
      else
        match hashLoop evp f.blksize fuel 0 s [] with
        | none => none
        | some (.error e) => some (.error e, released)
        | some (.ok data) => if !evp.final then some (.error (-22), released) else some (.ok (digest data), released)

/-- src/crypto/hash.c:146-164 `hash_validate_file` with src/crypto/hash.c:24-30 `hash_matches` -/
def hashValidateFile (digest : List Byte → List Byte) (evp : Evp) (fuel : Nat) (f : File) (expected : List Byte) (h : Held) : Option (Int × Held) :=
  match hashLocalFile digest evp fuel f h with
  | none => none
  | some (.error e, h) => some (e, h)
  | some (.ok actual, h) => if expected.length = actual.length ∧ expected = actual then some (0, h) else some (-22, h)

/-! ### Decoding base64 -/

/-- The BIO that decodes: what `BIO_read` yields, given how much is left to decode (`none`: an error, or nothing yet). -/
structure Bio where
  rest : List Byte
  step : List Byte → Nat → Nat

/-- `BIO_read`: at most `len` bytes, and as many as it likes. -/
def Bio.read (b : Bio) (len : Nat) : List Byte × Bio :=
  let n := min (min len b.rest.length) (b.step b.rest len)
  (b.rest.take n, { b with rest := b.rest.drop n })

/-- The loop of src/crypto/base64.c:26-110 `base64_decode`: what's written to `out`, of size `outLen`. `none`: it doesn't end. `failed`: whether there's an error in the queue at the end. -/
def decodeLoop (outLen : Nat) : Nat → Bio → List Byte → Option (List Byte)
  | 0, _, _ => none
  | fuel + 1, b, out =>
    match b.read (outLen - out.length) with
    | (got, b) => if 0 < got.length then decodeLoop outLen fuel b (out ++ got) else some out

/-- src/crypto/base64.c:26-110 `base64_decode` -/
def base64Decode (created pushed failed : Bool) (outLen fuel : Nat) (b : Bio) : Option (Option (List Byte)) :=
  if !created then some none
  else if !pushed then some none
  else
    match decodeLoop outLen fuel b [] with
    | none => none
    | some out => if failed then some none else some (some out)

/-- `EVP_DECODE_LENGTH` (openssl/evp.h). -/
def evpDecodeLength (l : Nat) : Nat := (l + 3) / 4 * 3 + 80

/-- src/object/tal.c:227-265 `read_spki`, and src/object/tal.c:130-134 `get_spki_alloc_size`: `key` is what's after the blank line; `decoder` is libcrypto's. -/
def readSpki (decoder : List Byte → Bio) (failed : Bool) (key : List Byte) : Verif.Tal.Res (Option (List Byte)) :=
  let size := evpDecodeLength key.length
  match Verif.Tal.base64Sanitize key with
  | .ub => .ub
  | .ok tmp =>
    match base64Decode true true failed size (size + 1) (decoder tmp) with
    | none => .ub
    | some r => .ok r

/-- src/rrdp.c:231-273 `base64_read`: `content` is a string. `none`: an error. -/
def base64Read (decoder : List Byte → Bio) (created failed : Bool) (content : List Byte) : Verif.Tal.Res (Option (List Byte)) :=
  match Verif.Tal.publishSanitize content with
  | .ub => .ub
  | .ok none => .ok none
  | .ok (some sanitized) =>
    if !created then .ok none
    else
      let size := evpDecodeLength content.length
      match base64Decode true true failed size (size + 1) (decoder sanitized) with
      | none => .ub
      | some r => .ok r

/-! ### Writing files -/

/-- src/rrdp.c:577-603 `write_file`. `mkdirResult`, `fopen` are their results; `written` is what `fwrite` yields; at the end the disk has the first `flushed` bytes, and `fclose` fails if those aren't all the ones
that were buffered. -/
def writeFile (mkdirResult : Int) (fopen : Option Nat) (content : List Byte) (written flushed : Nat) : Int × Option (List Byte) :=
  if mkdirResult ≠ 0 then (mkdirResult, none)
  else
    match fopen with
    | some e => (e, none)
    | none => if written ≠ content.length then (-22, some (content.take flushed)) else (0, some (content.take flushed))

/-! ### The metafile of the cache -/

/-- What's found at cache.json. -/
inductive Meta where
  | missing
  | notJson
  | notObject
  | noVersion
  | badVersion
  | version (v : List Char)
  deriving DecidableEq, Repr

/-- The cache: its metafile, and the files. -/
structure Disk (α : Type) where
  metafile : Meta
  files : List α
  deriving DecidableEq, Repr

/-- src/cache/local_cache.c:104-146 `init_cache_metafile`: `file_rm_rf` removes everything. `version` is PACKAGE_VERSION. -/
def initCacheMetafile {α : Type} (version : List Char) (d : Disk α) : Disk α :=
  match d.metafile with
  | .version v => if v = version then d else ⟨.missing, []⟩
  | _ => ⟨.missing, []⟩

/-- How far the end of src/cache/local_cache.c:190-202 `cache_teardown` got: `fopen` empties the file. -/
inductive Teardown where
  | cannotOpen
  | opened
  | done
  deriving DecidableEq, Repr

/-- src/cache/local_cache.c:190-202 `cache_teardown` with src/cache/local_cache.c:80-102 `write_simple_file` -/
def cacheTeardown {α : Type} (version : List Char) (how : Teardown) (d : Disk α) : Disk α :=
  match how with
  | .cannotOpen => d
  | .opened => { d with metafile := .notJson }
  | .done => { d with metafile := .version version }

/-- A run of the validator: it stores files, and it either dies before the end, or tears down. -/
structure Run (α : Type) where
  version : List Char
  stores : List α → List α
  teardown : Option Teardown

/-- src/object/tal.c:494-551 `perform_standalone_validation`, as far as the cache's metafile is concerned. -/
def Run.exec {α : Type} (r : Run α) (d : Disk α) : Disk α :=
  let d := initCacheMetafile r.version d
  let d := { d with files := r.stores d.files }
  match r.teardown with
  | none => d
  | some how => cacheTeardown r.version how d

end Verif.Fs
