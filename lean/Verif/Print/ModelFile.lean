import Verif.Cms.ModelBer
/-
Print mode's input and output: how the type of the file is guessed, how its bytes reach the decoders, and the exit status.
-/
namespace Verif.Print
open Verif.Res (Byte)
open Verif.Cms (Len berFetchLength Skip berFetchTag isConstructed)

/-! ### The type of the file -/

/-- src/config/file_type.h:6-13 `file_type`. `error` is the -EINVAL `guess_file_type` can return too (no value of the enum). -/
inductive FileType where
  | unk | roa | mft | gbr | cer | crl | error
  deriving DecidableEq, Repr

/-- What `guess_file_type` does: `ub` is a read outside of the header buffer. -/
inductive Guess where
  | ub
  | type (t : FileType)
  deriving DecidableEq, Repr

/-- Where a cursor ends up. -/
inductive Cur where
  | ub
  | null
  | at (pos : Nat)
  deriving DecidableEq, Repr

/-- src/print_file.c:110-121 `skip_sequence`. Positions are offsets in the buffer of `HDRSIZE` = 32 bytes. From 33 on, the size that's left
(unsigned) is huge, and the buffer is read outside of its limits. -/
def skipSequence (hdr : List Byte) (pos : Nat) : Cur :=
  if pos > 32 then .ub
  else
    match berFetchLength true (hdr.drop pos) with
    | .defn ll _ => if pos + ll ≤ 32 then .at (pos + ll) else .null
    | .indef => if pos + 1 ≤ 32 then .at (pos + 1) else .null
    | .more => .null
    | .bad => .null

/-- src/print_file.c:123-134 `skip_integer`. (Pointers beyond the buffer are computed, and compared, as numbers.) -/
def skipInteger (hdr : List Byte) (pos : Nat) : Cur :=
  if pos > 32 then .ub
  else
    match berFetchLength false (hdr.drop pos) with
    | .defn ll v => if pos + (ll + v) ≤ 32 then .at (pos + (ll + v)) else .null
    | .indef => .null
    | .more => .null
    | .bad => .null

/-- The last part of src/print_file.c:136-194 `guess_file_type`, after the version. The byte at 32 is outside of the buffer. -/
def guess3 (hdr : List Byte) : Cur → Guess
  | .ub => .ub
  | .null => .type .unk
  | .at pos =>
    match hdr[pos]? with
    | none => .ub
    | some b => if b = 0x02 then .type .cer else if b = 0x30 then .type .crl else .type .unk

/-- The part of src/print_file.c:136-194 `guess_file_type` after the second SEQUENCE. The tag there isn't read. -/
def guess2 (hdr : List Byte) : Cur → Guess
  | .ub => .ub
  | .null => .type .unk
  | .at pos => guess3 hdr (skipInteger hdr (pos + 1))

/-- The part of src/print_file.c:136-194 `guess_file_type` after the first SEQUENCE. -/
def guess1 (hdr : List Byte) : Cur → Guess
  | .ub => .ub
  | .null => .type .unk
  | .at pos =>
    match hdr[pos]? with
    | none => .ub
    | some b =>
      if b = 0x06 then .type .roa
      else if b ≠ 0x30 then .type .unk
      else guess2 hdr (skipSequence hdr (pos + 1))

/-- The buffer: what `BIO_read` wrote in it, and then what was on the stack. -/
def header (file junk : List Byte) : List Byte := (file.take 32 ++ junk).take 32

/-- src/print_file.c:136-194 `guess_file_type`. `configured`: option `--file-type`. The file is read without errors; `junk` is what the stack had
(32 bytes). `BIO_new_seq` is assumed to succeed. -/
def guessFileType (configured : FileType) (file junk : List Byte) : Guess :=
  if configured ≠ .unk then .type configured
  else if file = [] then .type .error
  else
    let hdr := header file junk
    if hdr.head? ≠ some 0x30 then .type .unk
    else guess1 hdr (skipSequence hdr 1)

/-! ### The bytes -/

/-- `struct bioseq_priv` (src/types/bio_seq.c:8-11): what the header's BIO still has, if it's still there, and what the file still has. -/
structure BioSeq where
  «prefix» : Option (List Byte)
  suffix : List Byte
  deriving DecidableEq, Repr

/-- `BIO_read` of memory or of a file that has these bytes left. -/
def bioRead (s : List Byte) (len : Nat) : List Byte × List Byte := (s.take len, s.drop len)

/-- src/types/bio_seq.c:13-30 `bioseq_read`: the bytes returned (none is 0, or an error). -/
def bioseqRead (b : BioSeq) (len : Nat) : List Byte × BioSeq :=
  match b.prefix with
  | some p =>
    let (r, p') := bioRead p len
    if p' = [] ∨ r = [] then (r, { b with «prefix» := none }) else (r, { b with «prefix» := some p' })
  | none =>
    let (r, s') := bioRead b.suffix len
    (r, { b with suffix := s' })

/-- The BIO `guess_file_type` leaves behind (src/print_file.c:134-196): the file's, if the type was configured, or the header and the rest. -/
def guessBio (configured : FileType) (file : List Byte) : BioSeq :=
  if configured ≠ .unk then ⟨none, file⟩ else ⟨some (file.take 32), file.drop 32⟩

/-- A number of reads of these sizes: the bytes that each one returned. -/
def reads (b : BioSeq) : List Nat → List (List Byte)
  | [] => []
  | n :: ns => let (r, b') := bioseqRead b n; r :: reads b' ns

/-! ### The decoder of signed objects -/

/-- `struct _stack_el` (src/asn1/asn1c/OCTET_STRING.c:119-128): `left` is none for -1. -/
structure Frame where
  left : Option Nat
  got : Nat
  wantNulls : Bool
  deriving DecidableEq, Repr

/-- The context of the decoder: the stack of expectations (innermost first), and whether it's in phase 2, the value of a primitive element. -/
structure Dec where
  stack : List Frame
  inValue : Bool
  deriving DecidableEq, Repr

/-- One step of the decoder. -/
inductive Step where
  | advance (k : Nat) (d : Dec)
  | done
  | more
  | fail
  deriving DecidableEq, Repr

/-- Whether the frame at the top is over. -/
def Frame.over (f : Frame) : Bool := decide (f.left = none ∨ f.left = some 0) && !f.wantNulls

/-- The part of src/asn1/asn1c/OCTET_STRING.c:173-523 `OCTET_STRING_decode_ber` that adds an expectation: a tag of `tl` bytes and a length. -/
def push (d : Dec) (constr : Bool) (tlvl : Nat) (len : Option Nat) : Step :=
  match d.stack with
  | [] => .advance tlvl ⟨[⟨len, tlvl, decide (len = none)⟩], !constr⟩
  | f :: _ =>
    match f.left with
    | some l =>
      if l < tlvl + len.getD 0 then .fail
      else .advance tlvl ⟨⟨some (len.getD (l - tlvl)), tlvl, decide (len = none)⟩ :: d.stack, !constr⟩
    | none => .advance tlvl ⟨⟨len, tlvl, decide (len = none)⟩ :: d.stack, !constr⟩

/-- The part of src/asn1/asn1c/OCTET_STRING.c:173-523 `OCTET_STRING_decode_ber` that reads a header, within the frame. -/
def header1 (d : Dec) (buf : List Byte) : Step :=
  match berFetchTag buf with
  | .more => .more
  | .bad => .fail
  | .stuck => .fail
  | .ok tl =>
    let constr := isConstructed buf
    match berFetchLength constr (buf.drop tl) with
    | .more => .more
    | .bad => .fail
    | .defn ll v =>
      match d.stack with
      | f :: rest =>
        if f.wantNulls ∧ buf[0]? = some 0 ∧ buf[1]? = some 0 then .advance 2 ⟨⟨some 0, f.got + 2, false⟩ :: rest, false⟩
        else push d constr (tl + ll) (some v)
      | [] => push d constr (tl + ll) (some v)
    | .indef => push d constr (tl + 1) none

/-- One turn of the loop of src/asn1/asn1c/OCTET_STRING.c:173-523 `OCTET_STRING_decode_ber`, for `ANY`: phase 1 (leaving a frame that's over, or reading the
next header) or phase 2 (one byte of a value: the code appends as many as there are, which is the same thing several times).
`Left` limits a header to what its frame has left. -/
def decStep (d : Dec) (buf : List Byte) : Step :=
  if d.inValue then
    match d.stack with
    | f :: rest =>
      match f.left with
      | some 0 => .advance 0 ⟨d.stack, false⟩
      | some (l + 1) => if buf = [] then .more else .advance 1 ⟨⟨some l, f.got + 1, f.wantNulls⟩ :: rest, true⟩
      | none => .fail
    | [] => .fail
  else
    match d.stack with
    | [] => header1 d buf
    | [f] => if f.over then .done else header1 d (buf.take (f.left.getD buf.length))
    | f :: p :: rest =>
      if f.over then
        match p.left with
        | some l => if l < f.got then .fail else .advance 0 ⟨⟨some (l - f.got), p.got + f.got, p.wantNulls⟩ :: rest, false⟩
        | none => .advance 0 ⟨⟨none, p.got + f.got, p.wantNulls⟩ :: rest, false⟩
      else header1 d (buf.take (f.left.getD buf.length))

/-- `asn_dec_rval_t`: RC_OK, RC_FAIL, or RC_WMORE with the bytes that weren't consumed. `stuck`: the bound on the recursion was too small. -/
inductive Rval where
  | ok
  | fail
  | more (unread : List Byte) (d : Dec)
  | stuck
  deriving DecidableEq, Repr

/-- The loop of src/asn1/asn1c/OCTET_STRING.c:173-523 `OCTET_STRING_decode_ber`. -/
def decLoop : Nat → Dec → List Byte → Rval
  | 0, _, _ => .stuck
  | n + 1, d, buf =>
    match decStep d buf with
    | .done => .ok
    | .fail => .fail
    | .more => .more buf d
    | .advance k d' => decLoop n d' (buf.drop k)

/-- One call to the decoder. A simplification: the SEQUENCE and the contentType of the ContentInfo (`SEQUENCE_decode_ber`) are walked through like what's in
its `content`, which is what `OCTET_STRING_decode_ber` does. The tags that are expected, and what's stored, are left out. -/
def decCall (d : Dec) (buf : List Byte) : Rval := decLoop (3 * buf.length + 2 * d.stack.length + 3) d buf

/-- Where decoding starts. -/
def Dec.start : Dec := ⟨[], false⟩

/-- The results of src/print_file.c:196-231 `bio2ci`. -/
inductive Ci where
  | ok
  | fail
  | stuck
  deriving DecidableEq, Repr

/-- The loop of src/print_file.c:196-231 `bio2ci`: `more` bytes that weren't consumed are not given to the decoder again. (The number bounds the number of reads.) -/
def bio2ciLoop : Nat → Dec → BioSeq → Ci
  | 0, _, _ => .stuck
  | n + 1, d, b =>
    let (buf, b') := bioseqRead b 4096
    if buf = [] then .fail
    else
      match decCall d buf with
      | .ok => .ok
      | .fail => .fail
      | .more _ d' => bio2ciLoop n d' b'
      | .stuck => .stuck

/-- src/print_file.c:196-231 `bio2ci` -/
def bio2ci (b : BioSeq) : Ci := bio2ciLoop (b.suffix.length + (b.prefix.getD []).length + 2) Dec.start b

/-! ### The output -/

/-- Standard output: bytes of the stream's buffer (of `size` bytes), bytes that reached the device, and how many more fit. -/
structure Stdout where
  size : Nat
  buf : List Byte
  out : List Byte
  room : Nat
  deriving DecidableEq, Repr

/-- The stream's flush: as much as fits in the device. Whether everything did. -/
def Stdout.flush (s : Stdout) : Bool × Stdout :=
  (decide (s.buf.length ≤ s.room), { s with buf := s.buf.drop s.room, out := s.out ++ s.buf.take s.room, room := s.room - s.buf.length })

/-- `fwrite`: buffers, and flushes if the buffer gets full. -/
def Stdout.write (s : Stdout) (bytes : List Byte) : Bool × Stdout :=
  let s := { s with buf := s.buf ++ bytes }
  if s.size ≤ s.buf.length then s.flush else (true, s)

/-- jansson's `json_dumpf`: one `fwrite` after the other, until one fails. -/
def dump : Stdout → List (List Byte) → Bool × Stdout
  | s, [] => (true, s)
  | s, c :: cs =>
    match s.write c with
    | (true, s) => dump s cs
    | (false, s) => (false, s)

/-- src/print_file.c:249-298 `__print_file`, from the type that was guessed on. `parsed`: the chunks of text of the document that was parsed, if the parser returned one; `errno` is what a failed
write leaves in that variable. Returns the exit status. -/
def printFile (t : FileType) (parsed : Option (List (List Byte))) (errno : Int) (s : Stdout) : Int × Stdout :=
  match t with
  | .unk => (-22, s)
  | .error => (-22, s)
  | _ =>
    match parsed with
    | none => (-22, s)
    | some chunks =>
      match dump s chunks with
      | (false, s) => (errno, s)
      | (true, s) => (0, (s.write [10]).2)

/-- The program's end: src/print_file.c:300-313 `print_file`, and the C library's flush at exit, which tells nobody whether it failed. -/
def printMode (t : FileType) (parsed : Option (List (List Byte))) (errno : Int) (s : Stdout) : Int × List Byte :=
  let (e, s) := printFile t parsed errno s
  (e, s.flush.2.out)

end Verif.Print
