import Verif.Res.Spec
/-
Object identifiers (X.690, 8.19).
-/
namespace Verif.Cms
open Verif.Res (Byte)

/-- A number in base 128, of the low 7 bits of each octet. -/
def val128 (bs : List Byte) : Nat := bs.foldl (fun v b => v * 128 + b.toNat % 128) 0

/-- Subidentifiers: the last octet of each one is less than 128, the others are not. -/
inductive Subs : List Byte → List Nat → Prop
  | nil : Subs [] []
  | cons (bs : List Byte) (y : Byte) (rest : List Byte) (vs : List Nat) (hb : ∀ x ∈ bs, 128 ≤ x.toNat) (hy : y.toNat < 128)
      (h : Subs rest vs) : Subs (bs ++ y :: rest) (val128 (bs ++ [y]) :: vs)

/-- These octets are this object identifier. The first subidentifier is 40 times the first arc plus the second. -/
def IsOid (b : List Byte) (arcs : List Nat) : Prop :=
  ∃ a0 a1 vs, arcs = a0 :: a1 :: vs ∧ Subs b ((40 * a0 + a1) :: vs) ∧ a0 ≤ 2 ∧ (a0 < 2 → a1 < 40)

def oidRoa : List Nat := [1, 2, 840, 113549, 1, 9, 16, 1, 24]
def oidManifest : List Nat := [1, 2, 840, 113549, 1, 9, 16, 1, 26]
def oidGhostbusters : List Nat := [1, 2, 840, 113549, 1, 9, 16, 1, 35]
def oidSignedData : List Nat := [1, 2, 840, 113549, 1, 7, 2]
def oidContentType : List Nat := [1, 2, 840, 113549, 1, 9, 3]
def oidMessageDigest : List Nat := [1, 2, 840, 113549, 1, 9, 4]
def oidSigningTime : List Nat := [1, 2, 840, 113549, 1, 9, 5]

end Verif.Cms
