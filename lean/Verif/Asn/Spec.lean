import Verif.Asn.Model
import Verif.Cms.SpecOid
import Mathlib.Data.List.Forall2
/-
BER encodings (X.690) of the values of a type, and the DER encodings.

Where asn1c is more tolerant than X.690, `Ber` is as well: tags may be written in more octets than needed; the length of a primitive
element may be written as the octet 128 (no octets follow: the length is zero); the explicit tag of a CHOICE or of an ANY may say that it is
primitive; the elements inside of a constructed string have the tags of `expected`.
-/
namespace Verif.Asn
open Verif.Res (Byte be)
open Verif.Cms (val128)

/-- Identifier octets: the class and the number of the tag, and whether the element is constructed. -/
def IsTag (tag : Nat) (constr : Bool) (t : List Byte) : Prop :=
  ∃ (b : Byte) (bs : List Byte), t = b :: bs ∧ b.toNat / 64 = tag % 4 ∧ (b.toNat / 32 % 2 = 1 ↔ constr = true) ∧
    ((bs = [] ∧ tag / 4 < 31 ∧ b.toNat % 32 = tag / 4) ∨
     (b.toNat % 32 = 31 ∧ ∃ cs y, bs = cs ++ [y] ∧ (∀ x ∈ cs, 128 ≤ x.toNat) ∧ y.toNat < 128 ∧ val128 bs = tag / 4 ∧ tag < 2 ^ 32))

/-- Octets of a definite length. -/
def IsLen (n : Nat) (constr : Bool) (l : List Byte) : Prop :=
  (∃ b : Byte, l = [b] ∧ b.toNat = n ∧ n < 128) ∨
  ∃ (k : Byte) (bs : List Byte), l = k :: bs ∧ k.toNat = 128 + bs.length ∧ k ≠ 255 ∧ be bs = n ∧ (constr = true → bs ≠ [])

/-- One element, with this tag and these contents: the length is definite; or indefinite, and then the element is constructed. -/
inductive Tlv (tag : Tag) (constr : Bool) (c : List Byte) : List Byte → Prop where
  | defn {t l} : IsTag tag constr t → IsLen c.length constr l → Tlv tag constr c (t ++ l ++ c)
  | indef {t} : IsTag tag true t → constr = true → Tlv tag constr c (t ++ [0x80] ++ c ++ [0, 0])

/-- An element with the first tag, that contains an element with the second one, and so on. All but the last one are constructed. -/
def Nest : List Tag → Bool → List Byte → List Byte → Prop
  | [], _, c, b => b = c
  | [t], constr, c, b => Tlv t constr c b
  | t :: ts, constr, c, b => ∃ x, Nest ts constr c x ∧ Tlv t true x b

/-- How a type is tagged where it is used. -/
inductive Tagging where
  | own
  | implicit (t : Tag)
  | explicit (t : Tag)
  deriving DecidableEq, Repr

/-- The tags of a type that is tagged in this way. -/
def Tagging.tags (tags : List Tag) : Tagging → List Tag
  | .own => tags
  | .implicit t => t :: tags.tail
  | .explicit t => t :: tags

/-- One element, or several one after the other: inside of an element of definite length, or of indefinite length. -/
inductive Kind where
  | one
  | seq
  | items

/-- Elements at some depth (inside of so many others), and the contents of the primitive elements in them; with the tags that are allowed
at each depth. Inside of an indefinite length no element consists of two zeros: that is where the contents end. -/
inductive Els (ok : Nat → Tag → Prop) : Kind → Nat → List Byte → List (List Byte) → Prop where
  | prim {d tag t l c} : IsTag tag false t → IsLen c.length false l → ok d tag → Els ok .one d (t ++ l ++ c) [c]
  | defn {d tag t l x ls} : IsTag tag true t → IsLen x.length true l → ok d tag → Els ok .seq (d + 1) x ls → Els ok .one d (t ++ l ++ x) ls
  | indef {d tag t x ls} : IsTag tag true t → ok d tag → Els ok .items (d + 1) x ls → Els ok .one d (t ++ [0x80] ++ x ++ [0, 0]) ls
  | nil {k d} : k ≠ .one → Els ok k d [] []
  | cons {k d e x l m} : Els ok .one d e l → k ≠ .one → (k = .items → e.take 2 ≠ [0, 0]) → Els ok k d x m → Els ok k d (e ++ x) (l ++ m)

/-- The values of strings that consist of these pieces. The first octet of a piece of a bit string is the number of unused bits of its
last octet; the last one of these counts, and the unused bits are cleared. -/
inductive StrVal : StrKind → List (List Byte) → Val → Prop where
  | octets {ls} : StrVal .octets ls (.bytes ls.flatten)
  | empty {ls} : ls.flatMap List.tail = [] → (∀ u, (ls.filter (· ≠ [])).getLast?.bind List.head? = some u → u = 0) →
      StrVal .bits ls (.bits [] 0)
  | bits {ls x u init last} : ls.flatMap List.tail = init ++ [x] → u ≤ 7 →
      (ls.filter (· ≠ [])).getLast?.bind List.head? = some (BitVec.ofNat 8 u) → last.toNat = x.toNat / 2 ^ u * 2 ^ u →
      StrVal .bits ls (.bits (init ++ [last]) u)

/-- The values of always primitive types. A BOOLEAN is its first octet that is not zero. -/
def PrimVal (k : PrimKind) (c : List Byte) (v : Val) : Prop :=
  match k with
  | .plain => v = .bytes c
  | .null => c = [] ∧ v = .null
  | .bool => ((∀ x ∈ c, x = 0) ∧ v = .bool 0) ∨ ∃ zeros x rest, c = zeros ++ x :: rest ∧ (∀ z ∈ zeros, z = 0) ∧ x ≠ 0 ∧ v = .bool x

/-- The tags of a string's elements: the outermost one is known; inside, see `expected`. -/
def StrTags (k : StrKind) (outer : Option Tag) (allTags : List Tag) : Nat → Tag → Prop
  | 0, t => ∀ o, outer = some o → t = o
  | d + 1, t => ∀ e, expected k allTags d = some e → t = e

/-- How the members of a SEQUENCE and the alternatives of a CHOICE are tagged. -/
def Head.tagging (h : Head) : Tagging :=
  match h.mode, h.tag with
  | .implicit, some t => .implicit t
  | .explicit, some t => .explicit t
  | _, _ => .own

mutual
/-- These bytes are a BER encoding of this value of the type, tagged in this way. -/
def Ber : Ty → Tagging → Val → List Byte → Prop
  | .prim k tags, g, v, b => ∃ c, Nest (g.tags tags) false c b ∧ PrimVal k c v
  | .str .any _ _, .explicit t, v, b => ∃ c constr, Tlv t constr c b ∧ v = .bytes c ∧ (constr = true → ∃ ls, Els (fun _ _ => True) .seq 1 c ls) ∧ ∃ ls, Els (fun _ _ => True) .one 0 b ls
  | .str .any _ _, g, v, b => v = .bytes b ∧ ∃ ls, Els (StrTags .any (g.tags []).head? []) .one 0 b ls
  | .str k tags all, g, v, b => ∃ ls, Els (StrTags k (g.tags tags).head? all) .one 0 b ls ∧ StrVal k ls v
  | .seq tags ms, g, v, b => ∃ c vs, Nest (g.tags tags) true c b ∧ v = .seq vs ∧ BerMems ms vs c
  | .setOf tags _ el, g, v, b => ∃ cs vs, Nest (g.tags tags) true cs.flatten b ∧ v = .list vs ∧ List.Forall₂ (fun x c => Ber el .own x c) vs cs
  | .choice tags as, g, v, b => ∃ c constr, Nest (g.tags tags) constr c b ∧ BerAlts as 0 v c

/-- The members one after the other; optional ones can be missing. -/
def BerMems : Mems → List (Option Val) → List Byte → Prop
  | .nil, vs, c => vs = [] ∧ c = []
  | .cons h ty rest, vs, c =>
    (h.opt = true ∧ ∃ ws, vs = none :: ws ∧ BerMems rest ws c) ∨
    ∃ x ws d e, vs = some x :: ws ∧ c = d ++ e ∧ Ber ty h.tagging x d ∧ BerMems rest ws e

/-- One of the alternatives; they are counted from the number on. -/
def BerAlts : Mems → Nat → Val → List Byte → Prop
  | .nil, _, _, _ => False
  | .cons h ty rest, i, v, c => (∃ x, v = .alt i x ∧ Ber ty h.tagging x c) ∨ BerAlts rest (i + 1) v c
end

end Verif.Asn
