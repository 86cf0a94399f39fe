import Verif.Asn.ModelCon
import Verif.Asn.Spec
import Verif.Mft.SpecTime
/-
Values of a type, and what the constraints in the ASN.1 modules mean.
-/
namespace Verif.Asn
open Verif.Res (Byte)

mutual
/-- A value of the type, as the rest of the program reads it: mandatory members are there, and exactly one alternative of each CHOICE. -/
def HasTy : Ty → Val → Prop
  | .prim .plain _, v => ∃ b, v = .bytes b
  | .prim .null _, v => v = .null
  | .prim .bool _, v => ∃ b, v = .bool b
  | .str .bits _ _, v => ∃ b u, v = .bits b u ∧ u ≤ 7 ∧ (b = [] → u = 0)
  | .str _ _ _, v => ∃ b, v = .bytes b
  | .seq _ ms, v => ∃ vs, v = .seq vs ∧ HasMems ms vs
  | .setOf _ _ el, v => ∃ l, v = .list l ∧ ∀ x ∈ l, HasTy el x
  | .choice _ as, v => ∃ i x, v = .alt i x ∧ HasAlt as i x

def HasMems : Mems → List (Option Val) → Prop
  | .nil, vs => vs = []
  | .cons h ty rest, vs => ∃ o ws, vs = o :: ws ∧ (o = none → h.opt = true) ∧ (∀ x, o = some x → HasTy ty x) ∧ HasMems rest ws

def HasAlt : Mems → Nat → Val → Prop
  | .nil, _, _ => False
  | .cons _ ty _, 0, x => HasTy ty x
  | .cons _ _ rest, i + 1, x => HasAlt rest i x
end

mutual
/-- The value complies with the constraints: its own, those of all members that are there, of all elements, and of the alternative. -/
def Meets : Con → Val → Prop
  | .none, _ => True
  | .bits, v => ∀ b u, v = .bits b u → u ≤ 7 ∧ (b = [] → u = 0)
  | .ia5, v => ∀ b, v = .bytes b → ∀ x ∈ b, x.toNat < 128
  | .oid, v => ∀ b, v = .bytes b → b ≠ []
  | .gtime, v => ∀ b, v = .bytes b → ∃ y m d h mi sec, Mft.GtText b y m d h mi sec
  | .utime, _ => True
  | .size lo hi, v => ∀ b, v = .bytes b → lo ≤ b.length ∧ b.length ≤ hi
  | .nonneg, v => ∀ b x rest, v = .bytes b → b = x :: rest → x.toNat < 128
  | .filled c, v => v ≠ .list [] ∧ Meets c v
  | .same c, v => Meets c v
  | .seq ms, v => ∀ vs, v = .seq vs → MeetsAll ms vs
  | .setOf c, v => ∀ l, v = .list l → ∀ x ∈ l, Meets c x
  | .choice as, v => ∀ i x, v = .alt i x → MeetsAt as i x

def MeetsAll : Cons → List (Option Val) → Prop
  | .nil, _ => True
  | .cons _ _ c rest, vs => (∀ x, vs.head? = some (some x) → Meets c x) ∧ MeetsAll rest vs.tail

def MeetsAt : Cons → Nat → Val → Prop
  | .nil, _, _ => True
  | .cons _ _ c _, 0, x => Meets c x
  | .cons _ _ _ rest, i + 1, x => MeetsAt rest i x
end

end Verif.Asn
