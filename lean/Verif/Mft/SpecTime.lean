import Verif.Mft.ModelTime
/-
Points in time.
-/
namespace Verif.Mft
open Verif.Res (Byte)

def Leap (y : Int) : Prop := y % 4 = 0 ∧ y % 100 ≠ 0 ∨ y % 400 = 0

instance (y : Int) : Decidable (Leap y) := by unfold Leap; infer_instance

/-- Days of the month `m` (from 1 to 12). -/
def monthDays (y m : Int) : Int :=
  if m = 2 then (if Leap y then 29 else 28) else if m = 4 ∨ m = 6 ∨ m = 9 ∨ m = 11 then 30 else 31

/-- Days of the first months of the year. -/
def daysBefore (y : Int) : Nat → Int
  | 0 => 0
  | m + 1 => daysBefore y m + monthDays y (m + 1)

/-- Days of the years before `y`. -/
def daysBeforeYear (y : Int) : Int := 365 * (y - 1) + (y - 1) / 4 - (y - 1) / 100 + (y - 1) / 400

/-- Seconds since the beginning of the calendar. -/
def instant (y m d h mi s : Int) : Int :=
  (daysBeforeYear y + daysBefore y (m - 1).toNat + (d - 1)) * 86400 + h * 3600 + mi * 60 + s

/-- There is such a point in time (leap seconds excluded). -/
def Real (y m d h mi s : Int) : Prop :=
  1 ≤ m ∧ m ≤ 12 ∧ 1 ≤ d ∧ d ≤ monthDays y m ∧ 0 ≤ h ∧ h ≤ 23 ∧ 0 ≤ mi ∧ mi ≤ 59 ∧ 0 ≤ s ∧ s ≤ 59

instance (y m d h mi s : Int) : Decidable (Real y m d h mi s) := by unfold Real; infer_instance

/-- `tm` is the point in time `t`. -/
def IsAt (tm : Tm) (t : Int) : Prop :=
  Real (tm.year + 1900) (tm.mon + 1) tm.mday tm.hour tm.min tm.sec ∧ t = instant (tm.year + 1900) (tm.mon + 1) tm.mday tm.hour tm.min tm.sec

/-- `n` decimal digits. -/
def Dec (n : Nat) (v : Nat) (b : List Byte) : Prop :=
  b.length = n ∧ (∀ x ∈ b, 0x30 ≤ x.toNat ∧ x.toNat ≤ 0x39) ∧ v = b.foldl (fun v x => v * 10 + (x.toNat - 0x30)) 0

/-- YYYYMMDDhhmmss, perhaps a fraction, and a Z. -/
def GtText (s : List Byte) (y m d h mi sec : Nat) : Prop :=
  ∃ b1 b2 b3 b4 b5 b6 f, s = b1 ++ b2 ++ b3 ++ b4 ++ b5 ++ b6 ++ f ++ [0x5A] ∧ Dec 4 y b1 ∧ Dec 2 m b2 ∧ Dec 2 d b3 ∧ Dec 2 h b4 ∧
    Dec 2 mi b5 ∧ Dec 2 sec b6 ∧ (f = [] ∨ ∃ p ds, f = p :: ds ∧ (p = 0x2C ∨ p = 0x2E) ∧ ∀ x ∈ ds, 0x30 ≤ x.toNat ∧ x.toNat ≤ 0x39)

/-- The text `s` stands for the point in time `t`, up to fractions of a second. -/
def Denotes (s : List Byte) (t : Int) : Prop :=
  ∃ y m d h mi sec : Nat, GtText s y m d h mi sec ∧ Real y m d h mi sec ∧ t = instant y m d h mi sec

end Verif.Mft
