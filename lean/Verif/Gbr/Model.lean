import Verif.Res.ModelAddr
/-
The vCard of Ghostbusters records: src/object/vcard.c.

Memory is explicit: the line's buffer has bytes that weren't written yet (`none`), and accesses out of it, or of bytes that weren't written, are `.ub`. Allocation doesn't fail, and sizes don't overflow
(they are bounded by twice the size of the file).
-/
namespace Verif.Gbr
open Verif.Res (Byte)

/-- The characters of a literal. -/
def bytes (s : String) : List Byte := s.toList.map (fun c => BitVec.ofNat 8 c.toNat)

/-- '\r' -/
def cr : Byte := 13#8
/-- '\n' -/
def lf : Byte := 10#8

/-- `struct vcard_line` (src/object/vcard.c:27-34): the buffer `str.val` (whose length is `str.size`), `str.len`, `octet_string_offset`. -/
structure Line where
  buf : List (Option Byte)
  len : Nat
  offset : Nat
  deriving DecidableEq, Repr

/-- The outcome: `err` are the errors, `ub` is undefined behaviour, `stuck` is that the loop of the lines doesn't end. -/
inductive Out (α : Type) where
  | ok (a : α)
  | err
  | ub
  | stuck
  deriving DecidableEq, Repr

/-- src/object/vcard.c:36-41 -/
inductive Analysis where
  | copyChara
  | lineEnded
  | skipThree
  | error
  deriving DecidableEq, Repr

/-- src/object/vcard.c:48-52 `next_chara`: the index, if there's one. -/
def nextChara (val : List Byte) (pos : Nat) : Option Nat := if pos < val.length - 1 then some (pos + 1) else none

/-- src/object/vcard.c:57-94 `analyze_pos`. `none`: out of bounds. -/
def analyzePos (val : List Byte) (pos : Nat) : Option Analysis :=
  match val[pos]? with
  | none => none
  | some c =>
    if c ≠ cr then some .copyChara
    else
      match nextChara val pos with
      | none => some .error
      | some n1 =>
        match val[n1]? with
        | none => none
        | some c1 =>
          if c1 ≠ lf then some .copyChara
          else
            match nextChara val (pos + 1) with
            | none => some .lineEnded
            | some n2 =>
              match val[n2]? with
              | none => none
              | some c2 => if c2 = 32#8 ∨ c2 = 9#8 then some .skipThree else some .lineEnded

/-- src/object/vcard.c:103-112 `add_chara` and src/object/vcard.c:96-101 `double_line_size`. `none`: out of bounds. -/
def addChara (line : Line) (c : Byte) (inc : Bool) : Option Line :=
  let buf := if line.len + 1 = line.buf.length then line.buf ++ List.replicate line.buf.length none else line.buf
  if line.len < buf.length then some ⟨buf.set line.len (some c), if inc then line.len + 1 else line.len, line.offset⟩ else none

/-- The loop of src/object/vcard.c:120-155 `line_next`. -/
def lineLoop (val : List Byte) (pos : Nat) (line : Line) : Out Line :=
  if _h : pos < val.length then
    match analyzePos val pos with
    | none => .ub
    | some .copyChara =>
      match val[pos]? with
      | none => .ub
      | some c =>
        match addChara line c true with
        | none => .ub
        | some line => lineLoop val (pos + 1) line
    | some .lineEnded =>
      match addChara { line with offset := line.offset + (pos + 2) } 0#8 false with
      | none => .ub
      | some line => .ok line
    | some .skipThree => lineLoop val (pos + 2 + 1) line
    | some .error => .err
  else .err
termination_by val.length - pos

/-- src/object/vcard.c:120-155 `line_next` -/
def lineNext (line : Line) (text : List Byte) : Out Line :=
  if text.length = line.offset then .err
  else lineLoop (text.drop line.offset) 0 { line with len := 0 }

/-- `tolower`, in the C locale. -/
def lower (b : Byte) : Byte := if 65 ≤ b.toNat ∧ b.toNat ≤ 90 then b + 32#8 else b

/-- `strncasecmp(buf, s, strlen(s)) == 0`. `none`: undefined. -/
def strncaseeq : List (Option Byte) → List Byte → Option Bool
  | _, [] => some true
  | [], _ :: _ => none
  | none :: _, _ :: _ => none
  | some b :: bs, t :: ts => if lower b ≠ lower t then some false else if b = 0#8 then some true else strncaseeq bs ts

/-- Whether `buf` can be read as a C string, for `%s`. -/
def cstring : List (Option Byte) → Bool
  | [] => false
  | none :: _ => false
  | some b :: bs => if b = 0#8 then true else cstring bs

/-- src/object/vcard.c:157-179 `line_validate`; the message prints the line. -/
def lineValidate (line : Line) (expected : List Byte) : Out Unit :=
  if line.len ≠ expected.length then if cstring line.buf then .err else .ub
  else
    match strncaseeq line.buf expected with
    | none => .ub
    | some false => if cstring line.buf then .err else .ub
    | some true => .ok ()

/-- `a || b`, evaluated from left to right; any of them can be undefined. -/
def orElse (a : Option Bool) (b : Unit → Option Bool) : Option Bool :=
  match a with
  | none => none
  | some true => some true
  | some false => b ()

/-- src/object/vcard.c:184-189 `line_starts_with` -/
def lineStartsWith (line : Line) (tag : List Byte) : Option Bool := strncaseeq line.buf tag

/-- The condition of src/object/vcard.c:191-249 `__handle_ghostbusters_vcard`. -/
def usefulLine (line : Line) : Option Bool :=
  orElse (lineStartsWith line (bytes "ORG:")) fun _ =>
  orElse (lineStartsWith line (bytes "ADR;")) fun _ =>
  orElse (lineStartsWith line (bytes "TEL;")) fun _ =>
  orElse (lineStartsWith line (bytes "EMAIL:")) fun _ => lineStartsWith line (bytes "EMAIL;")

/-- The loop of src/object/vcard.c:191-249 `__handle_ghostbusters_vcard`: the last line, `fn_found` and `useful_found`. -/
def linesLoop (text : List Byte) : Nat → Line → Bool → Bool → Out (Line × Bool × Bool)
  | 0, _, _, _ => .stuck
  | fuel + 1, line, fn, useful =>
    match lineNext line text with
    | .err => .err
    | .ub => .ub
    | .stuck => .stuck
    | .ok line =>
      match lineStartsWith line (bytes "FN:") with
      | none => .ub
      | some true => linesLoop text fuel line true useful
      | some false =>
        match usefulLine line with
        | none => .ub
        | some true => linesLoop text fuel line fn true
        | some false =>
          match lineStartsWith line (bytes "END:") with
          | none => .ub
          | some true => .ok (line, fn, useful)
          | some false => if cstring line.buf then .err else .ub

/-- Sequence. -/
def Out.bind {α β : Type} (o : Out α) (f : α → Out β) : Out β :=
  match o with
  | .ok a => f a
  | .err => .err
  | .ub => .ub
  | .stuck => .stuck

/-- src/object/vcard.c:191-249 `__handle_ghostbusters_vcard` -/
def handleLines (text : List Byte) (line : Line) : Out Unit :=
  (lineNext line text).bind fun line =>
  (lineValidate line (bytes "BEGIN:VCARD")).bind fun _ =>
  (lineNext line text).bind fun line =>
  (lineValidate line (bytes "VERSION:4.0")).bind fun _ =>
  (linesLoop text (text.length + 1) line false false).bind fun (line, fn, useful) =>
  (lineValidate line (bytes "END:VCARD")).bind fun _ =>
  if text.length ≠ line.offset then .err
  else if !fn then .err
  else if !useful then .err
  else .ok ()

/-- src/object/vcard.c:251-266 `handle_ghostbusters_vcard` -/
def handleVcard (text : List Byte) : Out Unit := handleLines text ⟨List.replicate 81 none, 0, 0⟩

end Verif.Gbr
