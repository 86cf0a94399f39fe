/-
Specifications for the request parser: queries by the RFC decoder, and structural UTF-8.
-/
import Verif.Rtr.SpecPdu
import Verif.Rtr.ModelStream

namespace Verif.Rtr

/-- The bytes `b` are, by the RFC decoder, the query `q` in version `v`. -/
def IsQuery (v : BitVec 8) (b : List Byte) (q : Query) : Prop :=
  Rfc.decode b = some ⟨v.toNat, match q with
    | .serial session serial => .serialQuery session.toNat serial.toNat
    | .reset => .resetQuery⟩

/-- A non-final octet of a UTF-8 code point, numerically. -/
def isCont (b : Byte) : Prop := 0x80 ≤ b.toNat ∧ b.toNat < 0xC0

/-- A structurally complete UTF-8 code point (RFC 3629 section 3, table; overlong forms are not excluded). -/
inductive CodePoint : List Byte → Prop
  | one (a : Byte) : a.toNat < 0x80 → CodePoint [a]
  | two (a b : Byte) : 0xC0 ≤ a.toNat → a.toNat < 0xE0 → isCont b → CodePoint [a, b]
  | three (a b c : Byte) : 0xE0 ≤ a.toNat → a.toNat < 0xF0 → isCont b → isCont c → CodePoint [a, b, c]
  | four (a b c d : Byte) : 0xF0 ≤ a.toNat → a.toNat < 0xF8 → isCont b → isCont c → isCont d →
      CodePoint [a, b, c, d]

/-- A sequence of complete code points. -/
inductive Utf8 : List Byte → Prop
  | nil : Utf8 []
  | cons (cp rest : List Byte) : CodePoint cp → Utf8 rest → Utf8 (cp ++ rest)

/-- All bytes that will ever be read from a socket. -/
def allData : List SockEv → List Byte
  | [] => []
  | .data bs :: es => bs ++ allData es
  | _ :: es => allData es

end Verif.Rtr
