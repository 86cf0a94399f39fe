import Verif.Res.Spec
/-
Dates of manifests.
-/
namespace Verif.Mft
open Verif.Res (Byte)

/-- `struct tm`, the fields that are used. `mon` counts from 0, `year` from 1900. -/
structure Tm where
  year : Int
  mon : Int
  mday : Int
  hour : Int
  min : Int
  sec : Int
  deriving DecidableEq, Repr

/-- Results of the parser; `oob` is for a byte that is read after the end of the buffer. -/
inductive G (α : Type) where
  | ok (a : α)
  | garbage
  | oob
  deriving DecidableEq, Repr

def G.bind {α β} (x : G α) (f : α → G β) : G β :=
  match x with
  | .ok a => f a
  | .garbage => .garbage
  | .oob => .oob

instance : Monad G where
  pure := .ok
  bind := G.bind

/-- The cases `0x30` to `0x39`. -/
def isDigit (b : Byte) : Bool := decide (0x30 ≤ b ∧ b ≤ 0x39)

/-- The macro `B2F` of src/asn1/asn1c/GeneralizedTime.c:280-418 `asn_GT2time_frac` -/
def b2f (v : Nat) (s : List Byte) : G (Nat × List Byte) :=
  match s with
  | [] => .oob
  | b :: s => if b < 0x30 ∨ 0x39 < b then .garbage else .ok (v * 10 + (b.toNat - 0x30), s)

/-- `B2F`, many times. -/
def b2fs : Nat → Nat → List Byte → G (Nat × List Byte)
  | 0, v, s => .ok (v, s)
  | n + 1, v, s => do
    let (v, s) ← b2f v s
    b2fs n v s

/-- The minutes, or the seconds, of src/asn1/asn1c/GeneralizedTime.c:280-418 `asn_GT2time_frac`: the end of the buffer, or something
that isn't a digit, are garbage. -/
def b2opt (s : List Byte) : G (Nat × List Byte) :=
  match s with
  | [] => .garbage
  | b :: s =>
    if isDigit b then
      match s with
      | [] => .garbage
      | _ => b2f (b.toNat - 0x30) s
    else .garbage

/-- The fraction of src/asn1/asn1c/GeneralizedTime.c:280-418 `asn_GT2time_frac`. Its value is not used. -/
def skipFrac (s : List Byte) : List Byte :=
  match s with
  | [] => []
  | b :: s => if b = 0x2C ∨ b = 0x2E then s.dropWhile isDigit else b :: s

/-- src/asn1/asn1c/GeneralizedTime.c:280-418 `asn_GT2time_frac` -/
def gt2time (s : List Byte) : G Tm :=
  if s.length < 10 then .garbage
  else do
    let (year, s) ← b2fs 4 0 s
    let (mon, s) ← b2fs 2 0 s
    let (mday, s) ← b2fs 2 0 s
    let (hour, s) ← b2fs 2 0 s
    let (min, s) ← b2opt s
    let (sec, s) ← b2opt s
    match s with
    | [] => .garbage
    | _ =>
      match skipFrac s with
      | [] => .garbage
      | z :: _ =>
        if z ≠ 0x5A then .garbage
        else if mon > 12 ∨ mon < 1 ∨ mday > 31 ∨ mday < 1 ∨ hour > 23 ∨ sec > 60 then .garbage
        else .ok ⟨(year : Int) - 1900, (mon : Int) - 1, mday, hour, min, sec⟩

/-- src/object/manifest.c:39-57 `tm_cmp` -/
def tmCmp (a b : Tm) : Int :=
  if a.year < b.year then -1 else if a.year > b.year then 1
  else if a.mon < b.mon then -1 else if a.mon > b.mon then 1
  else if a.mday < b.mday then -1 else if a.mday > b.mday then 1
  else if a.hour < b.hour then -1 else if a.hour > b.hour then 1
  else if a.min < b.min then -1 else if a.min > b.min then 1
  else if a.sec < b.sec then -1 else if a.sec > b.sec then 1
  else 0

/-- `enum incidence_action` -/
inductive Action where
  | ignore
  | warn
  | error
  deriving DecidableEq, Repr

/-- Results. `skip` is an error that is tolerated; `crash` is undefined behaviour or an abort. -/
inductive Res (α : Type) where
  | ok (a : α)
  | skip
  | err
  | crash
  deriving DecidableEq, Repr

/-- src/log.c:671-689 `incidence` -/
def incidence (a : Action) : Res Unit :=
  match a with
  | .ignore => .ok ()
  | .warn => .ok ()
  | .error => .err

/-- src/object/manifest.c:59-113 `validate_dates`. `now` is what `time` and `gmtime_r` give. -/
def validateDates (stale : Action) (now : Option Tm) (this next : List Byte) : Res Unit :=
  match gt2time this with
  | .oob => .crash
  | .garbage => .err
  | .ok t =>
    match gt2time next with
    | .oob => .crash
    | .garbage => .err
    | .ok n =>
      if tmCmp t n > 0 then .err
      else
        match now with
        | none => .err
        | some now =>
          if tmCmp now t < 0 then .err
          else if tmCmp now n > 0 then incidence stale
          else .ok ()

end Verif.Mft
