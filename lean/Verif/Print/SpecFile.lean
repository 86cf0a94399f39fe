import Verif.Cms.SpecBer
import Verif.Print.ModelFile
/-
What print mode should recognise, decode and write.
-/
namespace Verif.Print
open Verif.Res (Byte)
open Verif.Cms (IsLen AnyLen IsTag TagConstructed Kind)

/-- The file starts like RFC 5652's ContentInfo: a SEQUENCE, then an OBJECT IDENTIFIER. `n` bytes say so. -/
def SignedObjectStart (n : Nat) (file : List Byte) : Prop :=
  ∃ l rest : List Byte, file = 0x30 :: (l ++ 0x06 :: rest) ∧ AnyLen l ∧ n = l.length + 2

/-- The file starts like RFC 5280's Certificate, with an explicit version: SEQUENCE, SEQUENCE, [0], INTEGER. `n` bytes say so. -/
def CertificateStart (n : Nat) (file : List Byte) : Prop :=
  ∃ l1 l2 l3 v rest : List Byte, file = 0x30 :: (l1 ++ 0x30 :: (l2 ++ 0xA0 :: (l3 ++ (v ++ 0x02 :: rest)))) ∧ AnyLen l1 ∧ AnyLen l2 ∧
    IsLen v.length l3 ∧ n = l1.length + l2.length + l3.length + v.length + 4

/-- The same without a version (a default of RFC 5280: v1): SEQUENCE, SEQUENCE, INTEGER (the serial number), SEQUENCE (the algorithm). -/
def CertificateV1Start (n : Nat) (file : List Byte) : Prop :=
  ∃ l1 l2 l3 v rest : List Byte, file = 0x30 :: (l1 ++ 0x30 :: (l2 ++ 0x02 :: (l3 ++ (v ++ 0x30 :: rest)))) ∧ AnyLen l1 ∧ AnyLen l2 ∧
    IsLen v.length l3 ∧ n = l1.length + l2.length + l3.length + v.length + 4

/-- The file starts like RFC 5280's CertificateList, with a version: SEQUENCE, SEQUENCE, INTEGER, SEQUENCE. -/
def CrlStart (n : Nat) (file : List Byte) : Prop := CertificateV1Start n file

/-- Elements whose contents are elements, if the tag says so. -/
inductive Tlv : Kind → List Byte → Prop
  | prim (t l v : List Byte) (ht : IsTag t) (hc : ¬ TagConstructed t) (hl : IsLen v.length l) : Tlv .one (t ++ (l ++ v))
  | constr (t l v : List Byte) (ht : IsTag t) (hc : TagConstructed t) (hl : IsLen v.length l) (hv : Tlv .seq v) : Tlv .one (t ++ (l ++ v))
  | indef (t v : List Byte) (ht : IsTag t) (hc : TagConstructed t) (hv : Tlv .seq v) : Tlv .one (t ++ (0x80 :: (v ++ [0, 0])))
  | nil : Tlv .seq []
  | cons (x xs : List Byte) (hx : Tlv .one x) (h0 : x.take 2 ≠ [0, 0]) (hxs : Tlv .seq xs) : Tlv .seq (x ++ xs)

/-- A file with an element, of a size that exists. -/
def IsElement (file : List Byte) : Prop := Tlv .one file ∧ file.length < 2 ^ 62

/-- Where print mode's reads of a file end: 32 bytes if it had to guess the type, and then every 4096. -/
def ReadEnd (configured : FileType) (k : Nat) : Prop :=
  ∃ i, k = (if configured = .unk then 32 + 4096 * i else 4096 * (i + 1))

end Verif.Print
