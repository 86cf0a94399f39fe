import Verif.Rtr.Model
/-
HTTP downloads: src/http/http.c.

libcurl and the file system are the environment: what they do during an attempt is a parameter. Of libcurl it's assumed that it aborts the transfer, with
an error, as soon as the write callback doesn't accept all of the bytes (CURLOPT_WRITEFUNCTION(3)); and that it's given at most 2^63 bytes at a time.
-/
namespace Verif.Net
open Verif.Rtr (Byte)

/-- EAGAIN, EIO, EINVAL, EFBIG, ENOENT -/
abbrev eAGAIN : Int := 11
abbrev eIO : Int := 5
abbrev eINVAL : Int := 22
abbrev eFBIG : Int := 27
abbrev eNOENT : Int := 2

/-- Some bytes that libcurl received, what `fopen` says if the file isn't open yet (0 is a success), and how many of the bytes `fwrite` can write. -/
structure Chunk where
  data : List Byte
  openErr : Int
  writable : Nat
  deriving DecidableEq, Repr

/-- `struct write_callback_arg`. The file is what was written to it, if it's open. -/
structure WriteArg where
  total : Nat
  error : Int
  file : Option (List Byte)
  deriving DecidableEq, Repr

/-- src/http/http.c:89-115 `write_callback`: the new argument, and the result. (`size` is always 1.) -/
def writeCallback (max : Nat) (arg : WriteArg) (c : Chunk) : WriteArg × Nat :=
  let arg := { arg with total := (arg.total + c.data.length) % 2 ^ 64 }
  if arg.total > max then ({ arg with error := -eFBIG }, 0)
  else
    match arg.file with
    | some written => ({ arg with file := some (written ++ c.data.take c.writable) }, (c.data.take c.writable).length)
    | none =>
      if c.openErr ≠ 0 then ({ arg with error := c.openErr }, 0)
      else ({ arg with file := some (c.data.take c.writable), error := c.openErr }, (c.data.take c.writable).length)

/-- The CURLcodes that are told apart. -/
inductive Curl where
  | ok
  | filesizeExceeded
  | timedOut
  | resolveHost
  | resolveProxy
  | ftpAcceptTimeout
  | tooManyRedirects
  | other
  deriving DecidableEq, Repr

/-- libcurl's use of the callback: the last argument, and whether all the bytes were accepted. -/
def transfer (max : Nat) : List Chunk → WriteArg → WriteArg × Bool
  | [], arg => (arg, true)
  | c :: cs, arg =>
    let r := writeCallback max arg c
    if r.2 = c.data.length then transfer max cs r.1 else (r.1, false)

/-- What happens during an attempt. `initOk`: `curl_easy_init` succeeds. `chunks` is what is received. `res` is the result of
`curl_easy_perform`, if all the bytes are accepted. `flushed` is how many of the bytes that were written are in the file once it's closed. -/
structure Answer where
  initOk : Bool
  chunks : List Chunk
  res : Curl
  infoOk : Bool
  code : Int
  flushed : Nat
  deriving DecidableEq, Repr

/-- src/http/http.c:258-267 `handle_http_response_code` -/
def responseCode (code : Int) : Int :=
  if code = 408 ∨ code = 429 then eAGAIN
  else if 500 ≤ code ∧ code < 600 then eAGAIN
  else -eINVAL

/-- The part of src/http/http.c:272-354 `http_fetch` between `curl_easy_perform` and `end`: the error, and whether `changed` was set. -/
def fetchResult (max : Nat) (a : Answer) : Int × Bool :=
  let t := transfer max a.chunks ⟨0, 0, none⟩
  let res := if t.2 then a.res else .other
  -- src/http/http.c:221-239 `validate_file_size`
  if t.1.error = -eFBIG then (-eFBIG, false)
  else if a.infoOk = false then (-eINVAL, false)
  else
    match res with
    | .filesizeExceeded => (-eFBIG, false)
    | .timedOut => (eAGAIN, false)
    | .resolveHost => (eAGAIN, false)
    | .resolveProxy => (eAGAIN, false)
    | .ftpAcceptTimeout => (eAGAIN, false)
    | .tooManyRedirects => (-eINVAL, false)
    | .other => (responseCode a.code, false)
    | .ok =>
      if a.code ≥ 400 ∨ a.code = 204 then (responseCode a.code, false)
      else if a.code = 304 then (0, false)
      else (0, true)

/-- The destination file after the transfer: if the callback opened it, it's what was written and flushed, else it's as it was. -/
def afterTransfer (max : Nat) (a : Answer) (dst : Option (List Byte)) : Option (List Byte) :=
  match (transfer max a.chunks ⟨0, 0, none⟩).1.file with
  | none => dst
  | some written => some (written.take a.flushed)

/-- Result of a fetch. -/
structure Fetch where
  error : Int
  dst : Option (List Byte)
  changed : Bool
  deriving DecidableEq, Repr

/-- src/http/http.c:272-354 `http_fetch`. (`remove` succeeds.) -/
def httpFetch (max : Nat) (a : Answer) (dst : Option (List Byte)) (changed : Bool) : Fetch :=
  if a.initOk = false then ⟨-eINVAL, dst, changed⟩
  else
    let r := fetchResult max a
    if r.1 ≠ 0 then ⟨r.1, none, changed⟩
    else ⟨0, afterTransfer max a dst, changed || r.2⟩

/-- src/http/http.c:359-399 `do_retries`. `answers` is what happens in each attempt; the last component of the result is how many were made. `r` doesn't
overflow because it is no greater than an unsigned int. -/
def doRetries (max count : Nat) (answers : Nat → Answer) (r : Nat) (dst : Option (List Byte)) (changed : Bool) : Fetch × Nat :=
  let f := httpFetch max (answers r) dst changed
  if f.error = 0 then (f, r + 1)
  else if f.error = eAGAIN then
    if r ≥ count then ({ f with error := eIO }, r + 1)
    else doRetries max count answers (r + 1) f.dst f.changed
  else (f, r + 1)
  termination_by count - r

/-- What the file system does during a download: errors of `cache_tmpfile`, `stat` (ENOENT isn't one), `mkdir_p`, `rename`. -/
structure Fs where
  tmpfile : Int
  stat : Int
  mkdir : Int
  rename : Int
  deriving DecidableEq, Repr

/-- State of a download: the temporal file, which is new, and the final one. -/
structure Disk where
  tmp : Option (List Byte)
  final : Option (List Byte)
  deriving DecidableEq, Repr

/-- src/http/http.c:409-454 `http_download`: error, files, `changed`. -/
def httpDownload (max count : Nat) (answers : Nat → Answer) (fs : Fs) (final : Option (List Byte)) : Int × Disk × Bool :=
  if fs.tmpfile ≠ 0 then (fs.tmpfile, ⟨none, final⟩, false)
  else if fs.stat ≠ 0 then (fs.stat, ⟨none, final⟩, false)
  else
    let f := (doRetries max count answers 0 none false).1
    if f.error ≠ 0 ∨ f.changed = false then (f.error, ⟨f.dst, final⟩, f.changed)
    else if fs.mkdir ≠ 0 then (fs.mkdir, ⟨none, final⟩, true)
    else
      match f.dst with
      | none => (eNOENT, ⟨none, final⟩, true)
      | some content => if fs.rename ≠ 0 then (fs.rename, ⟨none, final⟩, true) else (0, ⟨none, some content⟩, true)

end Verif.Net
