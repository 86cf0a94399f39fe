import Verif.Uri.ModelPath
/-
Model of the URI module (src/types/uri.c): from URLs to files of the local cache.
C strings are lists of bytes without NUL; the memory behind one is the list and a NUL.
-/
namespace Verif.Uri
open Verif.Res (Byte)

/-- '.' -/
def dot : Byte := 0x2E

/-- "rsync://" -/
def rsyncPrefix : List Byte := [0x72, 0x73, 0x79, 0x6E, 0x63, 0x3A, 0x2F, 0x2F]
/-- "https://" -/
def httpsPrefix : List Byte := [0x68, 0x74, 0x74, 0x70, 0x73, 0x3A, 0x2F, 0x2F]
/-- "rrdp" -/
def rrdpName : List Byte := [0x72, 0x72, 0x64, 0x70]

/-- `enum uri_type` (src/types/uri.h) -/
inductive UriType where
  | rsync
  | https
  | caged
  deriving DecidableEq, Repr

/-- src/types/uri.c:26-64 `struct rpki_uri`. Not modelled: the reference counter. -/
structure Uri where
  global : List Byte
  loc : List Byte
  type : UriType
  deriving DecidableEq, Repr

/-- src/types/uri.c:71-103 `validate_url_character`; `char` is signed, so bytes from 0x80 on are negative: out of range
either way. -/
def validUrlChar (b : Byte) : Bool := decide (0x20 ≤ b ∧ b ≤ 0x7E)

/-- src/types/uri.c:109-127 `str2global` -/
def str2global (str : List Byte) : R (List Byte) :=
  if str.all validUrlChar then .ok str else .err .inval

/-- src/types/uri.c:129-137 `is_valid_mft_file_chara` -/
def validMftChar (c : Byte) : Bool :=
  decide (0x61 ≤ c ∧ c ≤ 0x7A) || decide (0x41 ≤ c ∧ c ≤ 0x5A) || decide (0x30 ≤ c ∧ c ≤ 0x39) ||
  decide (c = 0x2D) || decide (c = 0x5F)

/-- The loop of src/types/uri.c:140-164 `validate_mft_file`, from index `i` on. -/
def mftCharsOk (dotIdx : Nat) : Nat → List Byte → Bool
  | _, [] => true
  | i, c :: cs => if i ≠ dotIdx ∧ validMftChar c = false then false else mftCharsOk dotIdx (i + 1) cs

/-- src/types/uri.c:140-164 `validate_mft_file` -/
def validateMftFile (ia5 : List Byte) : R Unit :=
  if ia5.length < 5 then .err .inval
  else
    let d := ia5.length - 4
    match ia5[d]? with
    | none => .crash
    | some b =>
      if b ≠ dot then .err .inval
      else if mftCharsOk d 0 ia5 then .ok () else .err .inval

/-- `strrchr(s, '/')`: the text up to and including the last slash. -/
def upToLastSlash : List Byte → Option (List Byte)
  | [] => none
  | c :: cs =>
    match upToLastSlash cs with
    | some p => some (c :: p)
    | none => if c = slash then some [c] else none

/-- src/types/uri.c:175-207 `ia5str2global` -/
def ia5str2global (mft ia5 : List Byte) : R (List Byte) := do
  validateMftFile ia5
  match upToLastSlash mft with
  | none => .err .inval
  | some dir => .ok (dir ++ ia5)

/-- The token at the start of a text: what precedes the first slash (`strchr`), and what follows that slash, if there is
one. -/
def nextSlash : List Byte → List Byte × Option (List Byte)
  | [] => ([], none)
  | c :: cs => if c = slash then ([], some cs) else ((c :: (nextSlash cs).1), (nextSlash cs).2)

theorem nextSlash_lt : ∀ (l r : List Byte), (nextSlash l).2 = some r → r.length < l.length := by
  intro l
  induction l with
  | nil => intro r h; simp [nextSlash] at h
  | cons c cs ih =>
    intro r h
    unfold nextSlash at h
    split at h
    · simp only [Option.some.injEq] at h; subst h; simp
    · have := ih r h; simp only [List.length_cons]; omega

/-- src/types/uri.c:216-229 `path_next`. The parser is what follows the slash it is at, `none` if it has no slash any more.
The result, when there is a token: the text from the token on, the token's length, and the parser after it. -/
def pathNext (parser : Option (List Byte)) : Option (List Byte × Nat × Option (List Byte)) :=
  match parser with
  | none => none
  | some text =>
    let n := nextSlash text
    if text = [] then none else some (text, n.1.length, n.2)

/-- src/types/uri.c:231-235 `path_is_dot` -/
def pathIsDot (text : List Byte) (len : Nat) : Bool := decide (len = 1 ∧ text[0]? = some dot)

/-- src/types/uri.c:237-243 `path_is_dotdots` -/
def pathIsDotdots (text : List Byte) (len : Nat) : Bool :=
  decide (len = 2 ∧ text[0]? = some dot ∧ text[1]? = some dot)

/-- Size of what is left to parse. -/
def left : Option (List Byte) → Nat
  | none => 0
  | some t => t.length + 1

theorem pathNext_lt {p : Option (List Byte)} {t n p'} (h : pathNext p = some (t, n, p')) : left p' < left p := by
  unfold pathNext at h
  split at h
  · simp at h
  · rename_i text
    simp only at h
    split at h
    · simp at h
    · simp only [Option.some.injEq, Prod.mk.injEq] at h
      obtain ⟨-, -, rfl⟩ := h
      cases e : (nextSlash text).2 with
      | none => simp [left]
      | some r => have := nextSlash_lt text r e; simp only [left]; omega

/-- The loop of src/types/uri.c:245-301 `append_guri` over the components after the domain. -/
def appendLoop (limit : Nat) (parser : Option (List Byte)) (pb : PB) : R PB :=
  match _h : pathNext parser with
  | none => .ok pb
  | some (text, n, parser') =>
    if pathIsDotdots text n then
      match pbPop pb false with
      | .ok pb => if pb.len < limit then .err .inval else appendLoop limit parser' pb
      | .err e => .err e
      | .crash => .crash
    else if pathIsDot text n then appendLoop limit parser' pb
    else
      match pbAppendn pb (text ++ [0]) n with
      | .ok pb => appendLoop limit parser' pb
      | .err e => .err e
      | .crash => .crash
termination_by left parser
decreasing_by all_goals exact pathNext_lt (by assumption)

/-- `str_starts_with` (src/common.c) -/
def startsWith (s pre : List Byte) : Bool := pre.isPrefixOf s

/-- src/types/uri.c:245-301 `append_guri` -/
def appendGuri (pb : PB) (guri gprefix : List Byte) (err : Err) (skipSchema : Bool) : R PB :=
  if startsWith guri gprefix = false then .err err
  else do
    let pb ← if skipSchema then .ok pb else pbAppendn pb (guri ++ [0]) 5
    match pathNext (some (guri.drop 8)) with
    | none => .err .inval
    | some (text, n, parser) =>
      if pathIsDot text n then .err .inval
      else if pathIsDotdots text n then .err .inval
      else do
        let pb ← pbAppendn pb (text ++ [0]) n
        appendLoop pb.len parser pb

/-- src/types/uri.c:303-317 `get_rrdp_workspace` -/
def getRrdpWorkspace (repo : List Byte) (tal : Option (List Byte)) (notif : List Byte) : R PB := do
  let pb ← pbInitCache repo tal (some rrdpName)
  appendGuri pb notif httpsPrefix .notHttps true

/-- src/types/uri.c:322-340 `map_simple` -/
def mapSimple (repo : List Byte) (tal : Option (List Byte)) (global gprefix : List Byte) (err : Err) : R (List Byte) := do
  let pb ← pbInitCache repo tal none
  let pb ← appendGuri pb global gprefix err false
  .ok pb.str

/-- src/types/uri.c:346-367 `map_caged` -/
def mapCaged (repo : List Byte) (tal : Option (List Byte)) (global notif : List Byte) : R (List Byte) := do
  let pb ← getRrdpWorkspace repo tal notif
  if global = [] then .ok pb.str
  else do
    let pb ← appendGuri pb global rsyncPrefix .notRsync true
    .ok pb.str

/-- src/types/uri.c:369-383 `autocomplete_local`; a caged URI without notification is a NULL dereference. -/
def autocompleteLocal (repo : List Byte) (tal : Option (List Byte)) (type : UriType) (global : List Byte)
    (notif : Option Uri) : R (List Byte) :=
  match type with
  | .rsync => mapSimple repo tal global rsyncPrefix .notRsync
  | .https => mapSimple repo tal global httpsPrefix .notHttps
  | .caged =>
    match notif with
    | none => .crash
    | some n => mapCaged repo tal global n.global

/-- src/types/uri.c:389-418 `__uri_create` -/
def uriCreate (repo : List Byte) (tal : Option (List Byte)) (type : UriType) (notif : Option Uri) (guri : List Byte) :
    R Uri := do
  let g ← str2global guri
  let l ← autocompleteLocal repo tal type g notif
  .ok ⟨g, l, type⟩

/-- src/types/uri.c:424-452 `uri_create_mft` -/
def uriCreateMft (repo : List Byte) (tal : Option (List Byte)) (notif : Option Uri) (mft : Uri) (ia5 : List Byte) : R Uri := do
  let g ← ia5str2global mft.global ia5
  let type := if notif.isNone then UriType.rsync else .caged
  let l ← autocompleteLocal repo tal type g notif
  .ok ⟨g, l, type⟩

end Verif.Uri
