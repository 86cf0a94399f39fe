import Verif.Heap.Basic
/-
The objects that print mode holds: src/print_file.c, src/types/bio_seq.c. A document is one object (what it's made of is in Verif/Print, C146), a decoded object is one
object (C174), and a URI and a path are one object each. What they contain isn't modelled; what happens is an oracle's answer.
-/
namespace Verif.Pmem
open Verif.Heap

/-- A pointer; `none` is NULL. -/
abbrev Ptr := Option Id

/-- `free`, `BIO_free_all` and the like, of a pointer that may be NULL. -/
def freeP : Ptr → HM Unit
  | none => pure ()
  | some i => free i

/-- What's read from: one of libcrypto's BIOs, or the one of src/types/bio_seq.c:8-11 `bioseq_priv`. -/
inductive Bio where
  | plain (b : Id)
  | seq (b priv : Id) (before : Ptr) (after : Id)
  deriving DecidableEq, Repr

/-- What a BIO has. -/
def Bio.objs : Bio → List Id
  | .plain b => [b]
  | .seq b priv before after => b :: priv :: after :: before.toList

/-- `BIO_read`: src/types/bio_seq.c:13-30 `bioseq_read`. The prefix is released when it has been read. -/
def read : Bio → HM Bio
  | .plain b => do
    use b
    return .plain b
  | .seq b priv none after => do
    use b
    use priv
    use after
    return .seq b priv none after
  | .seq b priv (some before) after => do
    use b
    use priv
    use before
    if ← askB then
      free before
      return .seq b priv none after
    return .seq b priv (some before) after

/-- Some reads. -/
def reads : Nat → Bio → HM Bio
  | 0, b => return b
  | n + 1, b => do
    let b ← read b
    reads n b

/-- `BIO_free_all`, src/types/bio_seq.c:32-49 `bioseq_destroy`. The BIO has a pointer to its method, `m`. -/
def freeBio (m : Id) : Option Bio → HM Unit
  | none => pure ()
  | some (.plain b) => free b
  | some (.seq b priv before after) => do
    use b
    use m
    use priv
    freeP before
    free after
    free priv
    free b

/-- A BIO is made, if there's memory for it. -/
def createIf (oom : Bool) : HM (Option Id) := if oom then create else do return some (← new)

/-- src/types/bio_seq.c:80-100 `BIO_new_seq`, called with a new BIO that reads the header: src/print_file.c:149. What fails forgets its arguments. -/
def newSeq (oom : Bool) (m after : Id) : HM (Option Bio) := do
  match ← createIf oom with
  | none =>
    lose after
    return none
  | some before =>
    use m
    match ← createIf oom with
    | none =>
      lose before
      lose after
      return none
    | some b =>
      let priv ← new
      return some (.seq b priv (some before) after)

/-- The kinds of files. `err` is a negative number. src/config/file_type.h:6-13 `file_type` -/
inductive Kind where
  | unknown
  | signed
  | certificate
  | crl
  | err
  deriving DecidableEq, Repr

/-- What the header looks like. -/
def look : HM Kind := do
  return match ← ask with
    | 0 => .unknown
    | 1 => .signed
    | 2 => .certificate
    | _ => .crl

/-- src/print_file.c:136-194 `guess_file_type`; `given` is the option `--mode=print`'s `--file-type`. -/
def guessFileType (oom : Bool) (m : Id) (given : Option Kind) (bio : Id) : HM (Kind × Option Bio) := do
  match given with
  | some k => return (k, some (.plain bio))
  | none =>
    use bio
    if ← askB then return (.err, some (.plain bio))
    match ← newSeq oom m bio with
    | none => return (.err, none)
    | some b => return (← look, some b)

/-- What `ber_decode` says. -/
inductive Code where
  | ok
  | more
  | fail
  deriving DecidableEq, Repr

/-- `ber_decode` of a piece. There's an object if it succeeds; there may be one if not. -/
def berDecode (ci : Ptr) : HM (Code × Ptr) := do
  match ci, ← ask with
  | some i, n =>
    use i
    return (if n = 0 then .ok else if n = 1 then .more else .fail, some i)
  | none, 0 => return (.ok, some (← new))
  | none, 1 => return (.more, ← create)
  | none, _ => return (.fail, ← create)

/-- src/print_file.c:196-231 `bio2ci`, with a limit on the number of reads (files end). -/
def bio2ci : Nat → Bio → Ptr → HM (Ptr × Bio)
  | 0, b, ci => do
    freeP ci
    return (none, b)
  | n + 1, b, ci => do
    let b ← read b
    if ← askB then
      freeP ci
      return (none, b)
    match ← berDecode ci with
    | (.ok, ci) => return (ci, b)
    | (.more, ci) => bio2ci n b ci
    | (.fail, ci) =>
      freeP ci
      return (none, b)

/-- src/print_file.c:233-247 `asn1c2json` -/
def asn1c2json (bio : Bio) : HM (Ptr × Bio) := do
  match ← bio2ci (← ask) bio none with
  | (none, b) => return (none, b)
  | (some ci, b) =>
    use ci
    let json ← create
    free ci
    return (json, b)

/-- src/asn1/asn1c/Certificate.c:200-214 `Certificate_bio2json`, src/asn1/asn1c/CRL.c:129-143 `CRL_bio2json` -/
def bio2json (bio : Bio) : HM (Ptr × Bio) := do
  let b ← reads (← ask) bio
  match ← create with
  | none => return (none, b)
  | some x =>
    use x
    let json ← create
    free x
    return (json, b)

/-- src/print_file.c:20-32 `__rsync2bio` -/
def rsync2bio' : HM (Option Id) := do
  if ← askB then return none
  create

/-- src/print_file.c:34-64 `rsync2bio_tmpdir` -/
def rsync2bioTmpdir : HM (Option Id) := do
  if ← askB then return none
  let pb ← new
  use pb
  if ← askB then
    free pb
    return none
  use pb
  if ← askB then
    free pb
    return none
  let bio ← rsync2bio'
  free pb
  return bio

/-- src/print_file.c:66-88 `rsync2bio_cache` -/
def rsync2bioCache : HM (Option Id) := do
  match ← create with
  | none => return none
  | some uri =>
    use uri
    let bio ← rsync2bio'
    free uri
    return bio

/-- Where the file is: src/print_file.c:98-108 `filename2bio`, lines 90-96 `rsync2bio`. -/
inductive Where where
  | local_
  | rsyncTmp
  | rsyncCache
  deriving DecidableEq, Repr

/-- src/print_file.c:98-108 `filename2bio`, lines 90-96 `rsync2bio` -/
def filename2bio : Where → HM (Option Id)
  | .local_ => create
  | .rsyncTmp => rsync2bioTmpdir
  | .rsyncCache => rsync2bioCache

/-- The parser: src/print_file.c:261-277. -/
def parse (k : Kind) : Option Bio → HM (Ptr × Option Bio)
  | none => do
    match k with
    | .err => return (none, none)
    | _ =>
      crash
      return (none, none)
  | some b => do
    match k with
    | .signed =>
      let r ← asn1c2json b
      return (r.1, some r.2)
    | .certificate =>
      let r ← bio2json b
      return (r.1, some r.2)
    | .crl =>
      let r ← bio2json b
      return (r.1, some r.2)
    | _ => return (none, some b)

/-- The end of src/print_file.c:249-298 `__print_file`: the document is written, and released. -/
def write : Ptr → HM Bool
  | none => return false
  | some json => do
    use json
    let failed ← askB
    free json
    return !failed

/-- src/print_file.c:249-298 `__print_file`. Whether it succeeds. -/
def printFile' (oom : Bool) (m : Id) (w : Where) (given : Option Kind) : HM Bool := do
  match ← filename2bio w with
  | none => return false
  | some bio =>
    match ← guessFileType oom m given bio with
    | (.unknown, b) =>
      freeBio m b
      return false
    | (k, b) =>
      let r ← parse k b
      freeBio m r.2
      write r.1

/-- src/types/bio_seq.c:51-72 `bioseq_setup` -/
def setup : HM (Option Id) := do
  if ← askB then return none
  match ← create with
  | none => return none
  | some m =>
    use m
    if ← askB then
      free m
      return none
    return some m

/-- src/print_file.c:300-313 `print_file`, src/types/bio_seq.c:74-78 `bioseq_teardown` -/
def printFile (oom : Bool) (w : Where) (given : Option Kind) : HM Bool := do
  match ← setup with
  | none => return false
  | some m =>
    let r ← printFile' oom m w given
    free m
    return r

end Verif.Pmem
