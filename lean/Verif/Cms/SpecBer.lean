import Verif.Res.Spec
/-
BER (X.690), and where RFC 5652 puts a signed object's attributes.
-/
namespace Verif.Cms
open Verif.Res (Byte be)

/-- These octets are the definite length `n`: the short or the long form. -/
def IsLen (n : Nat) (l : List Byte) : Prop :=
  (∃ b : Byte, l = [b] ∧ b.toNat = n ∧ n < 128) ∨
  ∃ (k : Byte) (bs : List Byte), l = k :: bs ∧ k.toNat = 128 + bs.length ∧ bs ≠ [] ∧ k ≠ 255 ∧ be bs = n

/-- These octets are a tag, of up to four octets after the first one. -/
def IsTag (t : List Byte) : Prop :=
  (∃ b : Byte, t = [b] ∧ b.toNat % 32 ≠ 31) ∨
  ∃ (b : Byte) (bs : List Byte) (y : Byte), t = b :: (bs ++ [y]) ∧ b.toNat % 32 = 31 ∧ bs.length ≤ 3 ∧ (∀ x ∈ bs, 128 ≤ x.toNat) ∧
    y.toNat < 128

/-- The tag says that the value is made of elements. -/
def TagConstructed (t : List Byte) : Prop := ∃ b bs, t = b :: bs ∧ b.toNat / 32 % 2 = 1

/-- One element, or several one after the other. -/
inductive Kind where
  | one
  | seq

/-- BER encodings. (What is inside of values of definite length does not matter here.) -/
inductive Enc : Kind → List Byte → Prop
  | defn (t l v : List Byte) (ht : IsTag t) (hl : IsLen v.length l) : Enc .one (t ++ l ++ v)
  | indef (t items : List Byte) (ht : IsTag t) (hc : TagConstructed t) (hi : Enc .seq items) : Enc .one (t ++ [0x80] ++ items ++ [0, 0])
  | nil : Enc .seq []
  | cons (x xs : List Byte) (hx : Enc .one x) (h0 : x.take 2 ≠ [0, 0]) (hxs : Enc .seq xs) : Enc .seq (x ++ xs)

/-- An element with this tag. -/
def Elem (tag : Byte) (x : List Byte) : Prop := Enc .one x ∧ x.head? = some tag

/-- Octets of a length, definite or not. -/
def AnyLen (l : List Byte) : Prop := (∃ n < 2 ^ 62, IsLen n l) ∨ l = [0x80]

/-- RFC 5652's SignedData, with certificates, without CRLs, and its first SignerInfo, with a subjectKeyIdentifier and
with signed attributes. `attrs` is the encoding of the attributes, without the tag. -/
def Layout (buf attrs : List Byte) : Prop :=
  ∃ l1 version digestAlgs encap certs l2 l3 siVersion sid digestAlg rest : List Byte,
    buf = 0x30 :: (l1 ++ (version ++ (digestAlgs ++ (encap ++ (certs ++ (0x31 :: (l2 ++ (0x30 :: (l3 ++
      (siVersion ++ (sid ++ (digestAlg ++ (0xA0 :: (attrs ++ rest)))))))))))))) ∧
    AnyLen l1 ∧ Elem 0x02 version ∧ Elem 0x31 digestAlgs ∧ Elem 0x30 encap ∧ Elem 0xA0 certs ∧ AnyLen l2 ∧ AnyLen l3 ∧
    Elem 0x02 siVersion ∧ Elem 0x80 sid ∧ Elem 0x30 digestAlg ∧ Enc .one (0xA0 :: attrs) ∧ buf.length < 2 ^ 31

/-- The encoding has a definite length: what is digested according to RFC 5652 is this, after the tag of SET OF. -/
def Definite (attrs : List Byte) : Prop := ∃ l v : List Byte, attrs = l ++ v ∧ IsLen v.length l

end Verif.Cms
