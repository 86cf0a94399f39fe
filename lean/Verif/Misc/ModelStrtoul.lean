import Verif.Uri.ModelUri
/-
`strtoul(3)` in base 10 (the C library, 64 bit `unsigned long`), and OpenSSL's `BN_dec2bn`. Part of the trusted base: these are
descriptions of library functions.
-/
namespace Verif.Misc
open Verif.Res (Byte)

/-- `isspace` in the C locale -/
def isSpace (b : Byte) : Bool := decide (b = 0x20 ∨ (0x09 ≤ b ∧ b ≤ 0x0D))

/-- `isdigit` -/
def isDigit (b : Byte) : Bool := decide (0x30 ≤ b ∧ b ≤ 0x39)

/-- The number a sequence of digits stands for, when `n` precedes it. -/
def decVal (n : Nat) (s : List Byte) : Nat := s.foldl (fun n b => 10 * n + (b.toNat - 0x30)) n

/-- The result, and whether `errno` is ERANGE; then the text that was not used (`endptr`). -/
structure Strtoul where
  value : Nat
  erange : Bool
  rest : List Byte
  deriving DecidableEq, Repr

/-- `strtoul(s, &endptr, 10)` -/
def strtoul (s : List Byte) : Strtoul :=
  let t := s.dropWhile isSpace
  let (neg, t) := match t with
    | 0x2D :: r => (true, r)
    | 0x2B :: r => (false, r)
    | r => (false, r)
  let ds := t.takeWhile isDigit
  if ds = [] then ⟨0, false, s⟩
  else
    let v := decVal 0 ds
    let rest := t.dropWhile isDigit
    if 2 ^ 64 ≤ v then ⟨2 ^ 64 - 1, true, rest⟩
    else ⟨if neg then (2 ^ 64 - v) % 2 ^ 64 else v, false, rest⟩

/-- `BN_dec2bn`: `none` when it returns 0. The digits up to the first other character are used. -/
def bnDec2bn (s : List Byte) : Option Int :=
  let (neg, t) := match s with
    | 0x2D :: r => (true, r)
    | r => (false, r)
  let ds := t.takeWhile isDigit
  if ds = [] then none
  else some (if neg then - (decVal 0 ds : Int) else decVal 0 ds)

end Verif.Misc
