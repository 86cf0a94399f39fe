import Verif.Asn.WF
/-
DER encodings (X.690, 8 and 10): tags and lengths in as few octets as possible, lengths definite, strings primitive, the unused bits of
a bit string zero.

The rules about contents that are left out (an INTEGER in as few octets as possible, the elements of a SET OF in order, no member that
has its default value, a BOOLEAN that is 0 or 255) make DER a part of this.
-/
namespace Verif.Asn
open Verif.Res (Byte be)

/-- Identifier octets. -/
def DTag (tag : Nat) (constr : Bool) (t : List Byte) : Prop :=
  IsTag tag constr t ∧ (tag / 4 < 31 → t.length = 1) ∧ (31 ≤ tag / 4 → t[1]? ≠ some 0x80)

/-- Length octets. -/
def DLen (n : Nat) (l : List Byte) : Prop :=
  (∃ b : Byte, l = [b] ∧ b.toNat = n ∧ n < 128) ∨
  ∃ (k : Byte) (b0 : Byte) (bs : List Byte), l = k :: b0 :: bs ∧ k.toNat = 128 + (bs.length + 1) ∧ k ≠ 255 ∧ b0 ≠ 0 ∧ be (b0 :: bs) = n ∧ 128 ≤ n

/-- One element. -/
def DTlv (tag : Tag) (constr : Bool) (c b : List Byte) : Prop := ∃ t l, DTag tag constr t ∧ DLen c.length l ∧ b = t ++ l ++ c

/-- An element with the first tag, that contains an element with the second one, and so on. -/
def DNest : List Tag → Bool → List Byte → List Byte → Prop
  | [], _, c, b => b = c
  | [t], constr, c, b => DTlv t constr c b
  | t :: ts, constr, c, b => ∃ x, DNest ts constr c x ∧ DTlv t true x b

/-- Any element (or several). -/
inductive DEls : Kind → List Byte → Prop where
  | prim {tag c b} : DTlv tag false c b → DEls .one b
  | constr {tag c b} : DTlv tag true c b → DEls .seq c → DEls .one b
  | nil : DEls .seq []
  | cons {e x} : DEls .one e → DEls .seq x → DEls .seq (e ++ x)

/-- The contents of a string. -/
def DStr (k : StrKind) (c : List Byte) (v : Val) : Prop :=
  match k with
  | .bits => ∃ u bs, c = BitVec.ofNat 8 u :: bs ∧ u ≤ 7 ∧ (bs = [] → u = 0) ∧ (∀ x, bs.getLast? = some x → x.toNat % 2 ^ u = 0) ∧ v = .bits bs u
  | _ => v = .bytes c

mutual
/-- These bytes are the DER encoding of this value of the type, tagged in this way. -/
def Der : Ty → Tagging → Val → List Byte → Prop
  | .prim k tags, g, v, b => ∃ c, DNest (g.tags tags) false c b ∧ PrimVal k c v
  | .str .any _ _, .own, v, b => v = .bytes b ∧ DEls .one b
  | .str .any _ _, .explicit t, v, b => ∃ c, v = .bytes c ∧ DTlv t true c b ∧ DEls .one c
  | .str .any _ _, .implicit _, _, _ => False
  | .str k tags _, g, v, b => ∃ c, DNest (g.tags tags) false c b ∧ DStr k c v
  | .seq tags ms, g, v, b => ∃ c vs, DNest (g.tags tags) true c b ∧ v = .seq vs ∧ DerMems ms vs c
  | .setOf tags _ el, g, v, b => ∃ cs vs, DNest (g.tags tags) true cs.flatten b ∧ v = .list vs ∧ List.Forall₂ (fun x c => Der el .own x c) vs cs
  | .choice tags as, g, v, b => ∃ c, DNest (g.tags tags) true c b ∧ DerAlts as 0 v c

/-- The members one after the other; optional ones can be missing. -/
def DerMems : Mems → List (Option Val) → List Byte → Prop
  | .nil, vs, c => vs = [] ∧ c = []
  | .cons h ty rest, vs, c =>
    (h.opt = true ∧ ∃ ws, vs = none :: ws ∧ DerMems rest ws c) ∨
    ∃ x ws d e, vs = some x :: ws ∧ c = d ++ e ∧ Der ty h.tagging x d ∧ DerMems rest ws e

/-- One of the alternatives; they are counted from the number on. -/
def DerAlts : Mems → Nat → Val → List Byte → Prop
  | .nil, _, _, _ => False
  | .cons h ty rest, i, v, c => (∃ x, v = .alt i x ∧ Der ty h.tagging x c) ∨ DerAlts rest (i + 1) v c
end

/-! ### Types that can be decoded -/

mutual
/-- The first tag of an encoding of the type. -/
def Ty.First : Ty → Tag → Prop
  | .prim _ tags, t => tags.head? = some t
  | .str .any _ _, _ => True
  | .str _ tags _, t => tags.head? = some t
  | .seq tags _, t => tags.head? = some t
  | .setOf tags _ _, t => tags.head? = some t
  | .choice tags as, t => tags.head? = some t ∨ (tags = [] ∧ as.First t)

/-- The first tag of an encoding of one of the members. -/
def Mems.First : Mems → Tag → Prop
  | .nil, _ => False
  | .cons h ty rest, t => (if h.mode = .none then ty.First t else h.tag = some t) ∨ rest.First t
end

/-- The first tag of an encoding of a member. -/
def Head.First (h : Head) (ty : Ty) (t : Tag) : Prop := if h.mode = .none then ty.First t else h.tag = some t

/-- The first tag of an encoding of the member with this index. -/
def Mems.FirstAt : Mems → Nat → Tag → Prop
  | .nil, _, _ => False
  | .cons h ty _, 0, t => h.First ty t
  | .cons _ _ rest, k + 1, t => rest.FirstAt k t

mutual
/-- The tag says which member is next, in each SEQUENCE, and which alternative it is, in each CHOICE. -/
def Ty.Clear : Ty → Prop
  | .prim _ _ => True
  | .str _ _ _ => True
  | .seq _ ms => ms.Clear ∧ ms.SeqClear
  | .setOf _ tag el => el.Clear ∧ (∀ t, el.First t → tag = none ∨ tag = some t)
  | .choice _ as => as.Clear ∧ as.AltClear

def Mems.Clear : Mems → Prop
  | .nil => True
  | .cons _ ty rest => ty.Clear ∧ rest.Clear

/-- From each member on: the next one is found by its tag. -/
def Mems.SeqClear : Mems → Prop
  | .nil => True
  | .cons h ty rest =>
    (∀ k t, k ≤ optCount (h :: rest.heads) → (Mems.cons h ty rest).FirstAt k t → lookup (h :: rest.heads) t = some k) ∧ rest.SeqClear

/-- The tags of an alternative are in `tag2el`, and no others are. -/
def Mems.AltClear : Mems → Prop
  | .nil => True
  | .cons h ty rest => (∀ t, h.First ty t → t ∈ h.t2e) ∧ (∀ t ∈ h.t2e, ¬ rest.First t) ∧ rest.AltClear
end

end Verif.Asn
