import Verif.Tal.ThreadsModel
/-
TAL files: lines, URLs, the key's text; and the text of an RRDP publish tag, which is sanitized likewise.

A file is the list of its bytes that were not read yet; it does not change while it is read, and reading does not fail. Memory does not
run out. Writing past the end of a buffer is `ub`.
-/
namespace Verif.Tal
open Verif.Rtr (Byte)

/-- LF, CR, NUL, '#' -/
abbrev lf : Byte := 10#8
abbrev cr : Byte := 13#8
abbrev nul : Byte := 0#8
abbrev hash : Byte := 35#8

/-- `getline`: the bytes up to the next LF, which is included if there is one, and the rest. `none` is the -1 of an end of file. -/
def getline (file : List Byte) : Option (List Byte × List Byte) :=
  if file = [] then none
  else some (file.takeWhile (· ≠ lf) ++ (file.dropWhile (· ≠ lf)).take 1, (file.dropWhile (· ≠ lf)).drop 1)

/-- A C string: the bytes before the first NUL. -/
def cstr (buf : List Byte) : Str := buf.takeWhile (· ≠ nul)

/-- Results of `lfile_read`. -/
inductive Line where
  | eof
  | error
  | line (s : Str) (rest : List Byte)
  deriving DecidableEq, Repr

/-- src/line_file.c:51-141 `lfile_read` -/
def lfileRead (file : List Byte) : Line :=
  match getline file with
  | none => .eof
  | some (l, rest) =>
    let len := l.length
    if nul ∈ l then .error
    else
      let buf := l ++ [nul]
      let buf := if len ≥ 2 then (if buf[len - 2]? = some cr ∧ buf[len - 1]? = some lf then buf.set (len - 2) nul else buf) else buf
      let buf := if len ≥ 1 then (if buf[len - 1]? = some lf then buf.set (len - 1) nul else buf) else buf
      .line (cstr buf) rest

/-- `str_starts_with` -/
def startsWith (s pre : Str) : Bool := s.take pre.length == pre

/-- "rsync://", "https://" -/
def rsyncPrefix : Str := [114#8, 115#8, 121#8, 110#8, 99#8, 58#8, 47#8, 47#8]
def httpsPrefix : Str := [104#8, 116#8, 116#8, 112#8, 115#8, 58#8, 47#8, 47#8]

/-- Types of URIs. -/
inductive UriType where
  | rsync
  | https
  deriving DecidableEq, Repr

variable {U : Type}

/-- src/object/tal.c:43-60 `add_uri`. `uri_create` is not modelled here (see C37). -/
def addUri (create : UriType → Str → Option U) (uris : List U) (s : Str) : Option (List U) :=
  if startsWith s rsyncPrefix then (create .rsync s).map (uris ++ [·])
  else if startsWith s httpsPrefix then (create .https s).map (uris ++ [·])
  else none

/-- The second loop of src/object/tal.c:62-113 `read_uris`; `uri` is the line that was read. The first argument bounds the number of
iterations. -/
def uriLoop (create : UriType → Str → Option U) : Nat → Str → List Byte → List U → Option (List U × List Byte)
  | 0, _, _, _ => none
  | fuel + 1, uri, file, uris =>
    match addUri create uris uri with
    | none => none
    | some uris =>
      match lfileRead file with
      | .error => none
      | .eof => none
      | .line s rest => if s = [] then some (uris, rest) else uriLoop create fuel s rest uris

/-- The first loop of src/object/tal.c:62-113 `read_uris`, which skips comments. -/
def commentLoop : Nat → List Byte → Option (Str × List Byte)
  | 0, _ => none
  | fuel + 1, file =>
    match lfileRead file with
    | .error => none
    | .eof => none
    | .line s rest =>
      if s = [] then none
      else if s.head? = some hash then commentLoop fuel rest
      else some (s, rest)

/-- src/object/tal.c:62-113 `read_uris`. Each iteration reads at least a byte, so their number is bounded by the file's size. -/
def readUris (create : UriType → Str → Option U) (file : List Byte) : Option (List U × List Byte) :=
  match lfileRead file with
  | .error => none
  | .eof => none
  | .line s rest =>
    if s = [] then none
    else if s.head? = some hash then
      match commentLoop (rest.length + 1) rest with
      | none => none
      | some (s, rest) => uriLoop create (rest.length + 1) s rest []
    else uriLoop create (rest.length + 1) s rest []

/-- BUF_SIZE -/
abbrev bufSize : Nat := 65

/-- A buffer of fixed capacity: what was written to it so far, from its start. -/
def append (cap : Nat) (buf chunk : List Byte) : Res (List Byte) :=
  if buf.length + chunk.length ≤ cap then .ok (buf ++ chunk) else .ub

/-- `locate_char` of a LF: the bytes up to it, and the ones after it. -/
def splitLf : List Byte → Option (List Byte × List Byte)
  | [] => none
  | c :: l => if c = lf then some ([], l) else (splitLf l).map fun p => (c :: p.1, p.2)

/-- What the loop of src/object/tal.c:154-225 `base64_sanitize` writes for a chunk. -/
def sanitizeChunk (chunk : List Byte) : List Byte :=
  match splitLf chunk with
  | none => chunk.take (chunk.length - 1) ++ [lf] ++ chunk.drop (chunk.length - 1)
  | some (pre, post) => if pre.length + 1 < chunk.length then pre ++ [lf] ++ (post ++ [lf]) else pre ++ [lf]

/-- The loop of src/object/tal.c:154-225 `base64_sanitize`; `fread` yields as many bytes as it was asked for. -/
def sanitizeLoop (cap : Nat) (rest out : List Byte) : Res (List Byte) :=
  if h : rest = [] then .ok out
  else
    match append cap out (sanitizeChunk (rest.take bufSize)) with
    | .ub => .ub
    | .ok out => sanitizeLoop cap (rest.drop bufSize) out
  termination_by rest.length
  decreasing_by
    have : 0 < rest.length := List.length_pos_iff.2 h
    simp only [List.length_drop, bufSize]
    omega

/-- src/object/tal.c:154-225 `base64_sanitize`: what's left of the file after the blank line. (If the result does not fill the
buffer, it is reallocated so that the NUL fits.) -/
def base64Sanitize (key : List Byte) : Res (List Byte) :=
  let newSize := key.length + key.length / bufSize
  match sanitizeLoop (newSize + 1) key [] with
  | .ub => .ub
  | .ok out => if out.length ≠ newSize ∨ out.length + 1 ≤ newSize + 1 then .ok out else .ub

/-- `isspace` of the C locale. -/
def isSpace (b : Byte) : Bool := b == 32#8 || (decide (9#8 ≤ b) && decide (b ≤ 13#8))

/-- The loop of src/rrdp.c:184-229 `base64_sanitize`. -/
def publishLoop (cap : Nat) (rest out : List Byte) : Res (List Byte) :=
  if h : rest = [] then .ok out
  else
    match append cap out (rest.take bufSize) with
    | .ub => .ub
    | .ok out =>
      if rest.drop bufSize = [] then .ok out
      else
        match append cap out [lf] with
        | .ub => .ub
        | .ok out => publishLoop cap (rest.drop bufSize) out
  termination_by rest.length
  decreasing_by
    have : 0 < rest.length := List.length_pos_iff.2 h
    simp only [List.length_drop, bufSize]
    omega

/-- src/rrdp.c:184-229 `base64_sanitize` with src/rrdp.c:157-175 `ltrim`; the content is a string. -/
def publishSanitize (content : Str) : Res (Option Str) :=
  let tmp := content.dropWhile isSpace
  if tmp = [] then .ok none
  else if tmp.length ≤ bufSize then .ok (some content)
  else
    let newSize := tmp.length + tmp.length / bufSize
    match publishLoop (newSize + 1) tmp [] with
    | .ub => .ub
    | .ok out => if out.length ≠ newSize + 1 then .ok (some out) else .ub

end Verif.Tal
