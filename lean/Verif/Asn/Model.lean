import Verif.Cms.ModelBer
/-
asn1c's BER decoder, as it is used: on one complete buffer.

A pointer into a buffer, together with the number of bytes left, is the list of the bytes left. Simplifications:
* The decoders can be called again with more data, but nobody does it (src/asn1/decode.c:33-59 `asn1_decode` takes "want more" for
  an error). So what they store for that case (the phase and the step) is not there.
* Memory is never exhausted; the stack limit is never reached (it is a limit on the depth of the type, not of the data).
* Buffers are shorter than 2^30 bytes. (Then macro `APPEND`, src/asn1/asn1c/OCTET_STRING.c, does not fail.)
* No type that is decoded is extensible: `first_extension` and `ext_start` are -1. The branches for these are left out.
* The number of bytes consumed is only kept for successes. (Otherwise it only goes to the log.)
-/
namespace Verif.Asn
open Verif.Res (Byte)
open Verif.Cms (berFetchLength Len isConstructed)

/-- `ber_tlv_tag_t` (src/asn1/asn1c/ber_tlv_tag.h:24): four times the number, plus the class. -/
abbrev Tag := Nat

/-- Results of `fetchTag`: the tag and the number of bytes it takes; 0 ("want more") or -1. -/
inductive TagR where
  | ok (tag len : Nat)
  | more
  | bad
  deriving DecidableEq, Repr

/-- The loop of src/asn1/asn1c/ber_tlv_tag.c:10-59 `ber_fetch_tag`. -/
def tagLoop (cls : Nat) : List Byte → Nat → Nat → TagR
  | [], _, _ => .more
  | oct :: s, val, skipped =>
    if oct &&& 0x80 ≠ 0 then
      let val := (val * 128 + (oct &&& 0x7F).toNat) % 2 ^ 32
      if val >>> 23 ≠ 0 then .bad else tagLoop cls s val (skipped + 1)
    else .ok (((val * 128 + oct.toNat) * 4 + cls) % 2 ^ 32) skipped

/-- src/asn1/asn1c/ber_tlv_tag.c:10-59 `ber_fetch_tag` -/
def fetchTag : List Byte → TagR
  | [] => .more
  | t :: s =>
    if t &&& 0x1F ≠ 0x1F then .ok ((t &&& 0x1F).toNat * 4 + t.toNat / 64) 1
    else tagLoop (t.toNat / 64) s 0 2

/-- `tag_mode`: 0, -1 ("implicit tag at current level") or +1 ("explicit"). -/
inductive Mode where
  | none
  | implicit
  | explicit
  deriving DecidableEq, Repr

/-- Return values (`asn_dec_rval_t`). `hang`: the function does not return; `crash`: an assertion fails, or memory out of bounds is
accessed. -/
inductive R (α : Type) where
  | ok (v : α) (consumed : Nat)
  | more
  | fail
  | hang
  | crash
  deriving DecidableEq, Repr

def R.andThen {α β : Type} : R α → (α → Nat → R β) → R β
  | .ok v n, f => f v n
  | .more, _ => .more
  | .fail, _ => .fail
  | .hang, _ => .hang
  | .crash, _ => .crash

/-- `ctx->left`: a number of bytes, or minus the number of "end of contents" (two zeros) that are expected. -/
inductive Left where
  | defn (n : Nat)
  | indef (k : Nat)
  deriving DecidableEq, Repr

/-- Macro `ADVANCE` (src/asn1/asn1c/constr_SEQUENCE.c:44-51), what it does to `ctx->left`. -/
def Left.sub : Left → Nat → Left
  | .defn n, k => .defn (n - k)
  | .indef n, _ => .indef n

/-- The first `LEFT` bytes (src/asn1/asn1c/constr_SEQUENCE.c:24). Converted to `size_t`, negative numbers are large. -/
def view : Left → List Byte → List Byte
  | .defn n, s => s.take n
  | .indef _, s => s

/-- Macro `SIZE_VIOLATION` (src/asn1/asn1c/constr_SEQUENCE.c:37). -/
def violation : Left → List Byte → Bool
  | .defn n, s => decide (n ≤ s.length)
  | .indef _, _ => false

/-- "Want more" is a failure if the length says that there is no more. -/
def R.frame {α : Type} (viol : Bool) : R α → R α
  | .more => if viol then .fail else .more
  | r => r

/-! ### Tags -/

/-- What `ber_check_tags` finds: whether the last element is constructed, and its length. -/
structure Tl where
  form : Bool
  left : Left
  deriving DecidableEq, Repr

/-- The loop of src/asn1/asn1c/ber_decoder.c:54-271 `ber_check_tags`: the tags that are expected (none: any tag); the bytes left,
`limit_len`, `expect_00_terminators`, the bytes consumed, `tlv_constr`, `tlv_len`. -/
def tagsLoop (lastForm : Option Bool) : List (Option Tag) → List Byte → Option Nat → Nat → Nat → Bool → Nat → R Tl
  | [], _, _, eocs, consumed, form, len => .ok ⟨form, if eocs ≠ 0 then .indef eocs else .defn len⟩ consumed
  | t :: rest, s, limit, eocs, consumed, _, _ =>
    match fetchTag s with
    | .more => .more
    | .bad => .fail
    | .ok tag tl =>
      let constr := isConstructed s
      if t ≠ none ∧ t ≠ some tag then .fail
      else if rest ≠ [] ∧ constr = false then .fail
      else if rest = [] ∧ lastForm ≠ none ∧ lastForm ≠ some constr then .fail
      else
        match berFetchLength constr (s.drop tl) with
        | .more => .more
        | .bad => .fail
        | .indef =>
          if limit ≠ none then .fail
          else tagsLoop lastForm rest (s.drop (tl + 1)) none (eocs + 1) (consumed + (tl + 1)) constr 0
        | .defn ll v =>
          if eocs ≠ 0 then .fail
          else if limit ≠ none ∧ limit ≠ some (v + tl + ll) then .fail
          else tagsLoop lastForm rest ((s.drop (tl + ll)).take v) (some v) 0 (consumed + (tl + ll)) constr v

/-- src/asn1/asn1c/ber_decoder.c:54-271 `ber_check_tags`, on a type that has no tags (ANY), and with tag mode 0. -/
def anyTags (s : List Byte) : R Tl :=
  match fetchTag s with
  | .more => .more
  | .bad => .fail
  | .ok _ tl =>
    let constr := isConstructed s
    match berFetchLength constr (s.drop tl) with
    | .more => .more
    | .bad => .fail
    | .indef => .ok ⟨constr, .indef 1⟩ (tl + 1)
    | .defn ll v => .ok ⟨constr, .defn v⟩ (tl + ll)

/-- The tags that src/asn1/asn1c/ber_decoder.c:54-271 `ber_check_tags` expects: it does not check the first one if it is not
the type's own. -/
def chain (tags : List Tag) : Mode → List (Option Tag)
  | .none => tags.map some
  | .implicit => none :: tags.tail.map some
  | .explicit => none :: tags.map some

/-- src/asn1/asn1c/ber_decoder.c:54-271 `ber_check_tags`. `lastForm`: 0, 1 or -1 (none). -/
def checkTags (tags : List Tag) (m : Mode) (lastForm : Option Bool) (s : List Byte) : R Tl :=
  match tags, m with
  | [], .none => anyTags s
  | [], .implicit => .crash
  | _, _ => tagsLoop lastForm (chain tags m) s none 0 0 false 0

/-! ### Types and values -/

/-- Types that are always primitive: those of `ber_decode_primitive` (INTEGER, OBJECT IDENTIFIER), NULL and BOOLEAN. -/
inductive PrimKind where
  | plain
  | null
  | bool
  deriving DecidableEq, Repr

/-- `enum asn_OS_Subvariant`. -/
inductive StrKind where
  | octets
  | bits
  | any
  deriving DecidableEq, Repr

/-- `asn_TYPE_member_t`, without the type: the tag (none: -1), the tag mode, whether the member is optional (the field `optional` is
the number of optional members in a row, from this one on: `optCount`), whether ATF_ANY_TYPE is set; and the tags of its entries in
`tag2el`. (No tag equals -1: asn1c would take the private tag 2^30 - 1 for it; the member is then decoded, not looked for; it fails
either way.) -/
structure Head where
  tag : Option Tag
  mode : Mode
  opt : Bool
  any : Bool
  t2e : List Tag
  deriving DecidableEq, Repr

mutual
/-- `asn_TYPE_descriptor_t`: the tags (`tags`; for strings also `all_tags`), the elements. SEQUENCE OF is SET OF. -/
inductive Ty where
  | prim (k : PrimKind) (tags : List Tag)
  | str (k : StrKind) (tags allTags : List Tag)
  | seq (tags : List Tag) (ms : Mems)
  | setOf (tags : List Tag) (tag : Option Tag) (el : Ty)
  | choice (tags : List Tag) (as : Mems)

/-- The elements of a SEQUENCE or CHOICE. -/
inductive Mems where
  | nil
  | cons (h : Head) (ty : Ty) (rest : Mems)
end

def Mems.heads : Mems → List Head
  | .nil => []
  | .cons h _ rest => h :: rest.heads

/-- Decoded structures. Members of a SEQUENCE can be missing (a null pointer). The number in an alternative of a CHOICE is its index
(`present` minus one). -/
inductive Val where
  | bytes (b : List Byte)
  | null
  | bool (b : Byte)
  | bits (b : List Byte) (unused : Nat)
  | seq (ms : List (Option Val))
  | list (l : List Val)
  | alt (i : Nat) (v : Val)
  deriving Repr

/-! ### Primitive types -/

/-- src/asn1/asn1c/asn_codecs_prim.c:16-82 `ber_decode_primitive`, src/asn1/asn1c/NULL.c:60-97 `NULL_decode_ber` and
src/asn1/asn1c/BOOLEAN.c:43-103 `BOOLEAN_decode_ber` -/
def decPrim (k : PrimKind) (tags : List Tag) (m : Mode) (s : List Byte) : R Val :=
  (checkTags tags m (some false) s).andThen fun tl n =>
    match tl.left with
    | .indef _ => .crash
    | .defn len =>
      match k with
      | .null => if len ≠ 0 then .fail else .ok .null n
      | .plain => if len > (s.drop n).length then .more else .ok (.bytes ((s.drop n).take len)) (n + len)
      | .bool =>
        if len > (s.drop n).length then .more else .ok (.bool ((((s.drop n).take len).find? (· ≠ 0)).getD 0)) (n + len)

/-! ### Strings -/

/-- The end of src/asn1/asn1c/OCTET_STRING.c:173-523 `OCTET_STRING_decode_ber`. -/
def finalize (k : StrKind) (buf : List Byte) (unused : Nat) (n : Nat) : R Val :=
  match k with
  | .bits =>
    if buf = [] then (if unused ≠ 0 then .fail else .ok (.bits [] 0) n)
    else if unused > 7 then .fail
    else .ok (.bits (buf.dropLast ++ (buf.getLast?.map fun b => b &&& (0xff#8 <<< unused)).toList) unused) n
  | _ => .ok (.bytes buf) n

/-- `struct _stack_el`: `left` (none: -1), `got`, `want_nulls`. The depth is the number of elements below. -/
structure Frame where
  left : Option Nat
  got : Nat
  nulls : Bool
  deriving DecidableEq, Repr

/-- The tag that src/asn1/asn1c/OCTET_STRING.c:173-523 `OCTET_STRING_decode_ber` expects inside of an element of this depth (none:
any). -/
def expected (k : StrKind) (allTags : List Tag) (level : Nat) : Option Tag :=
  match k with
  | .any => none
  | _ => if level < allTags.length then allTags[level]? else allTags.getLast?

/-- What has been read into a string: the bytes, and the number of unused bits. -/
structure Str where
  buf : List Byte
  unused : Nat
  deriving DecidableEq, Repr

/-- Phase 2 of src/asn1/asn1c/OCTET_STRING.c:173-523 `OCTET_STRING_decode_ber`: the contents of a primitive element. -/
def Str.leaf (k : StrKind) (st : Str) (c : List Byte) : Str :=
  match k, c with
  | .bits, b :: c => ⟨st.buf ++ c, b.toNat⟩
  | _, c => { st with buf := st.buf ++ c }

/-- Bytes of tags, lengths and ends are part of an ANY, except for its explicit tag's. -/
def Str.outer (k : StrKind) (m : Mode) (level : Nat) (st : Str) (b : List Byte) : Str :=
  if k = .any ∧ (m ≠ .explicit ∨ level ≠ 0) then { st with buf := st.buf ++ b } else st

/-- The end of an iteration of phase 1 of src/asn1/asn1c/OCTET_STRING.c:173-523 `OCTET_STRING_decode_ber`, and phase 2: a new
element (lines 363-443). `room`: `sel->prev->left`; `w`: the first `Left` bytes of `s`. -/
def strPush (k : StrKind) (m : Mode) (next : List Frame → List Byte → Str → Nat → R Val) (stack : List Frame) (room : Option Nat)
    (w s : List Byte) (tl : Nat) (st : Str) (consumed : Nat) : R Val :=
  let constr := isConstructed s
  match berFetchLength constr (w.drop tl) with
  | .more => .more
  | .bad => .fail
  | .indef =>
    if (room.any fun r => decide (r < tl + 1)) then .fail
    else
      next (⟨room.map (· - (tl + 1)), tl + 1, true⟩ :: stack) (s.drop (tl + 1)) (st.outer k m stack.length (s.take (tl + 1)))
        (consumed + (tl + 1))
  | .defn ll v =>
    if (room.any fun r => decide (r < tl + ll + v)) then .fail
    else if constr then
      next (⟨some v, tl + ll, false⟩ :: stack) (s.drop (tl + ll)) (st.outer k m stack.length (s.take (tl + ll))) (consumed + (tl + ll))
    else if (s.drop (tl + ll)).length < v then .more
    else
      next (⟨some 0, tl + ll + v, false⟩ :: stack) (s.drop (tl + ll + v))
        ((st.outer k m stack.length (s.take (tl + ll))).leaf k ((s.drop (tl + ll)).take v)) (consumed + (tl + ll + v))

/-- The first `Left` bytes. -/
def room : Option Nat → List Byte → List Byte
  | some l, s => s.take l
  | none, s => s

/-- Phases 1 and 2 of src/asn1/asn1c/OCTET_STRING.c:173-523 `OCTET_STRING_decode_ber`: the constructed form. The first number bounds
the iterations (proved: enough). The stack is a list, `cur_ptr` first. -/
def strLoop (k : StrKind) (allTags : List Tag) (m : Mode) : Nat → List Frame → List Byte → Str → Nat → R Val
  | 0, _, _, _, _ => .hang
  | f + 1, [], s, st, consumed =>
    match fetchTag s with
    | .more => .more
    | .bad => .fail
    | .ok _ tl => strPush k m (strLoop k allTags m f) [] none s s tl st consumed
  | f + 1, top :: below, s, st, consumed =>
    if top.left = some 0 ∧ top.nulls = false then
      /- The element on top is complete. -/
      match below with
      | [] => finalize k st.buf st.unused consumed
      | p :: below =>
        if (p.left.any fun l => decide (l < top.got)) then .fail
        else strLoop k allTags m f (⟨p.left.map (· - top.got), p.got + top.got, p.nulls⟩ :: below) s st consumed
    else
      let w := room top.left s
      match fetchTag w with
      | .more => .more
      | .bad => .fail
      | .ok tag tl =>
        /- The length is looked at before anything else. -/
        match berFetchLength (isConstructed s) (w.drop tl) with
        | .more => .more
        | .bad => .fail
        | _ =>
          match s with
          | b0 :: b1 :: rest =>
            if top.nulls = true ∧ b0 = 0 ∧ b1 = 0 then
              strLoop k allTags m f (⟨some 0, top.got + 2, false⟩ :: below) rest (st.outer k m below.length [0, 0]) (consumed + 2)
            else if expected k allTags below.length ≠ none ∧ expected k allTags below.length ≠ some tag then .fail
            else strPush k m (strLoop k allTags m f) (top :: below) top.left w s tl st consumed
          | _ => .crash

/-- src/asn1/asn1c/OCTET_STRING.c:173-523 `OCTET_STRING_decode_ber`. (Phase 3: a primitive element.) -/
def decStr (k : StrKind) (tags allTags : List Tag) (m : Mode) (s : List Byte) : R Val :=
  (checkTags tags m none s).andThen fun tl n =>
    if tl.form then strLoop k allTags m (2 * s.length + 1) [] s ⟨[], 0⟩ 0
    else
      match tl.left with
      | .indef _ => .crash
      | .defn len =>
        if (s.drop n).length < len then .more
        else
          let st : Str := ⟨if k = .any ∧ m ≠ .explicit then s.take n else [], 0⟩
          let st := st.leaf k ((s.drop n).take len)
          finalize k st.buf st.unused (n + len)

/-! ### SEQUENCE -/

/-- Whether there is an "end of contents": yes, no, or not enough bytes to know. It is only looked for if the length is indefinite; the
buffer has at least one byte. -/
inductive Eoc where
  | yes
  | no
  | more
  | crash
  deriving DecidableEq, Repr

/-- src/asn1/asn1c/constr_SEQUENCE.c:119-512 `SEQUENCE_decode_ber` (lines 247-254), src/asn1/asn1c/constr_SET_OF.c:77-275
`SET_OF_decode_ber` (179-185) -/
def eocAt : Left → List Byte → Eoc
  | .defn _, _ => .no
  | .indef _, [] => .crash
  | .indef _, b0 :: [] => if b0 = 0 then .more else .no
  | .indef _, b0 :: b1 :: _ => if b0 = 0 ∧ b1 = 0 then .yes else .no

/-- Phases 3 and 4 of src/asn1/asn1c/constr_SEQUENCE.c:119-512 `SEQUENCE_decode_ber`, with an indefinite length: this many ends of
contents. -/
def seqEocs : Nat → List Byte → R Unit
  | 0, _ => .ok () 0
  | k + 1, s =>
    match fetchTag s with
    | .more => .more
    | .bad => .fail
    | .ok _ _ =>
      match s with
      | [] => .crash
      | [b0] => if b0 = 0 then .more else .fail
      | b0 :: b1 :: s => if b0 = 0 ∧ b1 = 0 then (seqEocs k s).andThen fun _ n => .ok () (n + 2) else .fail

/-- Phases 3 and 4 of src/asn1/asn1c/constr_SEQUENCE.c:119-512 `SEQUENCE_decode_ber`. -/
def seqEnd : Left → List Byte → R Unit
  | .defn 0, _ => .ok () 0
  | .defn (n + 1), s =>
    match fetchTag (s.take (n + 1)) with
    | .more => if violation (.defn (n + 1)) s then .fail else .more
    | _ => .fail
  | .indef k, s => seqEocs k s

/-- `elements[edx].optional` (the elements are those from `edx` on): the number of members that can be missing in a row. -/
def optCount : List Head → Nat
  | [] => 0
  | h :: hs => if h.opt then 1 + optCount hs else 0

/-- The linear search of src/asn1/asn1c/constr_SEQUENCE.c:119-512 `SEQUENCE_decode_ber`: the index, or nothing; or an ambiguous tag
was met. -/
inductive Linear where
  | found (n : Nat)
  | ambiguous
  | nothing
  deriving DecidableEq, Repr

def linear (tag : Tag) : List Head → Nat → Linear
  | [], _ => .nothing
  | h :: hs, n =>
    if h.tag = some tag then .found n
    else if h.any then .found n
    else if h.tag = none then .ambiguous
    else linear tag hs (n + 1)

/-- The last of these members that has an entry with this tag in `tag2el`. -/
def best (tag : Tag) : List Head → Nat → Option Nat
  | [], _ => none
  | h :: hs, n => (best tag hs (n + 1)).or (if tag ∈ h.t2e then some n else none)

/-- The search of src/asn1/asn1c/constr_SEQUENCE.c:119-512 `SEQUENCE_decode_ber` for the member with this tag: its index, counted from
`edx`. `bsearch` on `tag2el` (it is sorted; src/asn1/asn1c/constr_SEQUENCE.c:84-113 `_t2e_cmp`) and the loop that follows find
the last member in the range that has the tag. -/
def lookup (hs : List Head) (tag : Tag) : Option Nat :=
  let opt := optCount hs
  let p := if opt + 1 > hs.length then (hs.length, false) else if opt + 1 > 8 then (8, true) else (opt + 1, false)
  match linear tag (hs.take p.1) 0 with
  | .found n => some n
  | .ambiguous => best tag (hs.take (opt + 1)) 0
  | .nothing => if p.2 then best tag (hs.take (opt + 1)) 0 else none

/-- What microphase 1 decides: the structure ends here (by its length, or by an end of contents), or the member with this index is
next. -/
inductive Sync where
  | done
  | eoc
  | at (k : Nat)
  | more
  | fail
  | crash
  deriving DecidableEq, Repr

/-- Microphase 1 of src/asn1/asn1c/constr_SEQUENCE.c:119-512 `SEQUENCE_decode_ber`; the members are those from `edx` on. -/
def sync (hs : List Head) (left : Left) (s : List Byte) : Sync :=
  if left = .defn 0 ∧ optCount hs = hs.length then .done
  else
    match fetchTag (view left s) with
    | .more => if violation left s then .fail else .more
    | .bad => .fail
    | .ok tag _ =>
      match eocAt left s with
      | .crash => .crash
      | .more => .more
      | e =>
        if e = .yes ∧ optCount hs = hs.length then .eoc
        else
          match lookup hs tag with
          | some k => .at k
          | none => .fail

/-! ### SET OF -/

/-- Phase 2 of src/asn1/asn1c/constr_SET_OF.c:77-275 `SET_OF_decode_ber`: this many ends of contents. -/
def setEocs : Nat → List Byte → R Unit
  | 0, _ => .ok () 0
  | _ + 1, [] => .more
  | _ + 1, [b0] => if b0 ≠ 0 then .fail else .more
  | k + 1, b0 :: b1 :: s => if b0 = 0 ∧ b1 = 0 then (setEocs k s).andThen fun _ n => .ok () (n + 2) else .fail

/-- The loop of src/asn1/asn1c/constr_SET_OF.c:77-275 `SET_OF_decode_ber`. The first number bounds the iterations (proved: enough). -/
def setLoop (dec : List Byte → R Val) (tag : Option Tag) : Nat → Left → List Byte → R (List Val)
  | 0, _, _ => .hang
  | f + 1, left, s =>
    if left = .defn 0 then .ok [] 0
    else
      match fetchTag (view left s) with
      | .more => if violation left s then .fail else .more
      | .bad => .fail
      | .ok t _ =>
        match eocAt left s with
        | .crash => .crash
        | .more => .more
        | .yes =>
          match left with
          | .indef k => (setEocs k s).andThen fun _ n => .ok [] n
          | .defn _ => .crash
        | .no =>
          if tag ≠ none ∧ tag ≠ some t then .fail
          else
            ((dec (view left s)).frame (violation left s)).andThen fun x n =>
              (setLoop dec tag f (left.sub n) (s.drop n)).andThen fun xs n' => .ok (x :: xs) (n + n')

/-! ### CHOICE -/

/-- The loop of phase 3 of src/asn1/asn1c/constr_CHOICE.c:110-366 `CHOICE_decode_ber`: this many ends of contents. After a zero and
something else, it goes on where it is. -/
def choiceEocs : Nat → List Byte → R Unit
  | 0, _ => .ok () 0
  | k + 1, s =>
    match fetchTag s with
    | .more => .more
    | .bad => .fail
    | .ok _ _ =>
      match s with
      | [] => .crash
      | [b0] => if b0 = 0 then .more else .fail
      | b0 :: b1 :: s =>
        if b0 = 0 then (if b1 = 0 then (choiceEocs k s).andThen fun _ n => .ok () (n + 2) else .hang)
        else .fail

/-- Phase 3 of src/asn1/asn1c/constr_CHOICE.c:110-366 `CHOICE_decode_ber`. `untagged`: `!(tag_mode || td->tags_count)`. -/
def choiceEnd (untagged : Bool) : Left → List Byte → R Unit
  | .defn n, _ => if n > 0 then .fail else .ok () 0
  | .indef k, s => if k = 1 ∧ untagged = true then .ok () 0 else choiceEocs k s

/-! ### All types -/

mutual
/-- `td->op->ber_decoder`: src/asn1/asn1c/constr_SEQUENCE.c:119-512 `SEQUENCE_decode_ber`,
src/asn1/asn1c/constr_SET_OF.c:77-275 `SET_OF_decode_ber` and src/asn1/asn1c/constr_CHOICE.c:110-366
`CHOICE_decode_ber` -/
def dec : Ty → Mode → List Byte → R Val
  | .prim k tags, m, s => decPrim k tags m s
  | .str k tags all, m, s => decStr k tags all m s
  | .seq tags ms, m, s =>
    (checkTags tags m (some true) s).andThen fun tl n =>
      (decMems ms none tl.left (s.drop n)).andThen fun vs n' => .ok (.seq vs) (n + n')
  | .setOf tags tag el, m, s =>
    (checkTags tags m (some true) s).andThen fun tl n =>
      (setLoop (fun b => dec el .none b) tag (s.length + 1) tl.left (s.drop n)).andThen fun vs n' => .ok (.list vs) (n + n')
  | .choice tags as, m, s =>
    let untagged := decide (m = .none ∧ tags = [])
    (if untagged then R.ok ⟨false, .indef 1⟩ 0 else checkTags tags m none s).andThen fun tl n =>
      match fetchTag (view tl.left (s.drop n)) with
      | .more => if violation tl.left (s.drop n) then .fail else .more
      | .bad => .fail
      | .ok tag _ =>
        ((decAlts as 0 tag (view tl.left (s.drop n))).frame (violation tl.left (s.drop n))).andThen fun x n' =>
          (choiceEnd untagged (tl.left.sub n') ((s.drop n).drop n')).andThen fun _ n'' => .ok x (n + n' + n'')

/-- The members of a SEQUENCE, from one on. `jump`: the member with this index is next, the others are missing. -/
def decMems : Mems → Option Nat → Left → List Byte → R (List (Option Val))
  | .nil, _, left, s => (seqEnd left s).andThen fun _ n => .ok [] n
  | .cons h ty rest, jump, left, s =>
    match (match jump with
      | some k => Sync.at k
      | none => sync (h :: rest.heads) left s) with
    | .done => .ok (none :: rest.heads.map fun _ => none) 0
    | .eoc => (seqEnd left s).andThen fun _ n => .ok (none :: rest.heads.map fun _ => none) n
    | .more => .more
    | .fail => .fail
    | .crash => .crash
    | .at 0 =>
      ((dec ty h.mode (view left s)).frame (violation left s)).andThen fun x n =>
        (decMems rest none (left.sub n) (s.drop n)).andThen fun xs n' => .ok (some x :: xs) (n + n')
    | .at (k + 1) => (decMems rest (some k) left s).andThen fun xs n => .ok (none :: xs) n

/-- The alternative of a CHOICE that has an entry with the tag in `tag2el` (`bsearch` with src/asn1/asn1c/constr_CHOICE.c:82-105
`_search4tag`: there is one entry for each tag). -/
def decAlts : Mems → Nat → Tag → List Byte → R Val
  | .nil, _, _, _ => .fail
  | .cons h ty rest, i, tag, s =>
    if tag ∈ h.t2e then (dec ty h.mode s).andThen fun x n => .ok (.alt i x) n
    else decAlts rest (i + 1) tag s
end

/-- src/asn1/asn1c/ber_decoder.c:34-49 `ber_decode` -/
def berDecode (ty : Ty) (s : List Byte) : R Val := dec ty .none s

end Verif.Asn
