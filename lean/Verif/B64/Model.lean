import Verif.Tal.ThreadsModel
/-
base64url (RFC 4648, section 5), without padding: src/crypto/base64.c.

libcrypto is not modelled: its encoder is a parameter of the model, of which the properties assume that it writes what RFC 4648, section 4
says; its decoder is a parameter, of which the properties assume that it understands that. Memory does not run out.
Reading past the end of the allocated memory is `ub`.
-/
namespace Verif.B64
open Verif.Rtr (Byte)
open Verif.Tal (Res Str)

/-- '=', '+', '/', '-', '_' -/
abbrev eq : Byte := 61#8
abbrev plus : Byte := 43#8
abbrev slash : Byte := 47#8
abbrev minus : Byte := 45#8
abbrev under : Byte := 95#8

/-- `strchr(base, '=')`: `ub` if memory ends before there's a NUL. -/
def strchrEq : List Byte → Res (Option Nat)
  | [] => .ub
  | c :: mem =>
    if c = eq then .ok (some 0)
    else if c = 0#8 then .ok none
    else
      match strchrEq mem with
      | .ub => .ub
      | .ok r => .ok (r.map (· + 1))

/-- The character translation of src/crypto/base64.c:183-212 `to_base64url`. -/
def toUrl (c : Byte) : Byte := if c = plus then minus else if c = slash then under else c

/-- src/crypto/base64.c:183-212 `to_base64url`. `base` is the text, which isn't followed by a NUL but by `after`: the rest of the memory that's
allocated. -/
def toBase64url (base after : List Byte) : Res Str :=
  match strchrEq (base ++ after) with
  | .ub => .ub
  | .ok pad =>
    let len := match pad with
      | none => base.length
      | some i => i
    if (base ++ after).length < len then .ub else .ok (((base ++ after).take len).map toUrl)

/-- src/crypto/base64.c:222-254 `base64url_encode`, when libcrypto's allocations succeed; `encode` is libcrypto's encoder, without newlines,
and `after` is the rest of its buffer. -/
def base64urlEncode (encode : List Byte → List Byte) (after : List Byte) (x : List Byte) : Res Str :=
  toBase64url (encode x) after

/-- The character translation of src/crypto/base64.c:119-181 `base64url_decode`. -/
def fromUrl (c : Byte) : Byte := if c = minus then plus else if c = under then slash else c

/-- The text that src/crypto/base64.c:119-181 `base64url_decode` gives to the decoder. -/
def padded (s : Str) : Str :=
  let pad := if s.length % 4 > 0 then 4 - s.length % 4 else 0
  s.map fromUrl ++ List.replicate pad eq

/-- src/crypto/base64.c:119-181 `base64url_decode`; `decode` is libcrypto's decoder. -/
def base64urlDecode (decode : Str → Option (List Byte)) (s : Str) : Option (List Byte) :=
  match decode (padded s) with
  | none => none
  | some x => if x.length = 0 then none else some x

end Verif.B64
