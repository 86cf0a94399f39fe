import Verif.Obj.SpecObj
import Verif.Obj.EncLemmas
import Verif.Obj.Model
import Verif.Asn.Props
/-
The encodings of SpecObj are DER encodings of the types that the decoder is generated from.
-/
namespace Verif.Obj
open Verif.Res (Byte be)
open Verif.Asn

/-- Short enough for the decoder. -/
def Fits (b : List Byte) : Prop := b.length < 2 ^ 62

theorem Fits.tlv {t : Byte} {c : List Byte} (h : Fits (tlv t c)) : Fits c := Nat.lt_trans (tlv_length t c) h
theorem Fits.left {a b : List Byte} (h : Fits (a ++ b)) : Fits a := by unfold Fits at *; rw [List.length_append] at h; omega
theorem Fits.right {a b : List Byte} (h : Fits (a ++ b)) : Fits b := by unfold Fits at *; rw [List.length_append] at h; omega
theorem Fits.mem {α : Type} {l : List α} {f : α → List Byte} (h : Fits (l.flatMap f)) {x : α} (hx : x ∈ l) : Fits (f x) := by
  unfold Fits at *
  obtain ⟨a, b, rfl⟩ := List.append_of_mem hx
  simp only [List.flatMap_append, List.flatMap_cons, List.length_append] at h
  omega

theorem dnest1 {tag : Nat} {constr : Bool} {t : Byte} {c : List Byte} (ht : IdOctet tag constr t) (h : Fits (tlv t c)) :
    DNest [tag] constr c (tlv t c) := tlv_dtlv ht h.tlv

theorem der_plain {tag : Nat} {t : Byte} {c : List Byte} (ht : IdOctet tag false t) (h : Fits (tlv t c)) :
    Der (.prim .plain [tag]) .own (.bytes c) (tlv t c) := ⟨c, dnest1 ht h, rfl⟩

theorem der_int {n : Nat} (h : Fits (derInt n)) : Der (.prim .plain [8]) .own (.bytes (intOctets n)) (derInt n) := der_plain (by decide) h

theorem der_null (h : Fits derNull) : Der (.prim .null [20]) .own .null derNull := ⟨[], dnest1 (by decide) h, rfl, rfl⟩

theorem der_octets {tag : Nat} {t : Byte} {all : List Tag} {c : List Byte} (ht : IdOctet tag false t) (h : Fits (tlv t c)) :
    Der (.str .octets [tag] all) .own (.bytes c) (tlv t c) := ⟨c, dnest1 ht h, rfl⟩

theorem der_bits {u : Nat} {all : List Tag} {bs : List Byte} (h : Fits (tlv 3 (BitVec.ofNat 8 u :: bs))) (hu : u ≤ 7) (h0 : bs = [] → u = 0)
    (hz : ∀ x, bs.getLast? = some x → x.toNat % 2 ^ u = 0) : Der (.str .bits [12] all) .own (.bits bs u) (tlv 3 (BitVec.ofNat 8 u :: bs)) :=
  ⟨_, dnest1 (by decide) h, u, bs, rfl, hu, h0, hz, rfl⟩

theorem der_prefix {w addr len : Nat} {all : List Tag} (hw : w % 8 = 0) (hl : len ≤ w) (hd : 2 ^ (w - len) ∣ addr) (h : Fits (derPrefix w addr len)) :
    Der (.str .bits [12] all) .own (.bits (bitOctets w addr len) (unusedBits len)) (derPrefix w addr len) := by
  refine der_bits h (by unfold unusedBits; omega) (fun e => ?_) (prefix_clear hw hl hd)
  have := bitOctets_length w addr len
  rw [e] at this
  simp only [List.length_nil] at this
  unfold unusedBits
  omega

theorem der_sequence {ms : Mems} {vs : List (Option Val)} {c : List Byte} (h : Fits (derSeq c)) (hm : DerMems ms vs c) :
    Der (.seq [64] ms) .own (.seq vs) (derSeq c) := ⟨c, vs, dnest1 (by decide) h, rfl, hm⟩

theorem der_list {α : Type} {tag : Option Tag} {el : Ty} {l : List α} {f : α → Val} {enc : α → List Byte} (h : Fits (derSeq (l.flatMap enc)))
    (hl : ∀ x ∈ l, Fits (enc x) → Der el .own (f x) (enc x)) : Der (.setOf [64] tag el) .own (.list (l.map f)) (derSeq (l.flatMap enc)) := by
  refine ⟨l.map enc, _, ?_, rfl, ?_⟩
  · rw [← List.flatMap_def]
    exact dnest1 (by decide) h
  · have : ∀ m : List α, (∀ x ∈ m, Der el .own (f x) (enc x)) → List.Forall₂ (fun x c => Der el .own x c) (m.map f) (m.map enc) := by
      intro m hm
      induction m with
      | nil => exact .nil
      | cons x m ih => exact .cons (hm x (by simp)) (ih fun y hy => hm y (by simp [hy]))
    exact this l fun x hx => hl x hx (h.tlv.mem hx)

theorem derMems_nil : DerMems .nil [] [] := ⟨rfl, rfl⟩

theorem derMems_cons {h : Head} {ty : Ty} {rest : Mems} {x : Val} {ws : List (Option Val)} {d e : List Byte} (hd : Der ty h.tagging x d)
    (he : DerMems rest ws e) : DerMems (.cons h ty rest) (some x :: ws) (d ++ e) := Or.inr ⟨x, ws, d, e, rfl, rfl, hd, he⟩

theorem derMems_last {h : Head} {ty : Ty} {x : Val} {d : List Byte} (hd : Der ty h.tagging x d) : DerMems (.cons h ty .nil) [some x] d :=
  Or.inr ⟨x, [], d, [], rfl, by simp, hd, derMems_nil⟩

theorem derMems_none {h : Head} {ty : Ty} {rest : Mems} {ws : List (Option Val)} {c : List Byte} (ho : h.opt = true) (he : DerMems rest ws c) :
    DerMems (.cons h ty rest) (none :: ws) c := Or.inl ⟨ho, ws, rfl, he⟩

theorem all_map {α β : Type} {f : Val → Option β} {g : α → Val} {k : α → β} {l : List α} (h : ∀ x ∈ l, f (g x) = some (k x)) :
    all f (l.map g) = some (l.map k) := by
  induction l with
  | nil => rfl
  | cons x l ih =>
    simp only [List.map_cons, all]
    rw [h x (by simp), ih fun y hy => h y (by simp [hy])]

theorem width_mod (v6 : Bool) : width v6 % 8 = 0 := by cases v6 <;> rfl

/-! ### ROAs -/

def RoaPrefix.val (w : Nat) (p : RoaPrefix) : Val :=
  .seq [some (.bits (bitOctets w p.addr p.len) (unusedBits p.len)), p.maxLength.map fun m => .bytes (intOctets m)]

theorem RoaPrefix.der {w : Nat} {p : RoaPrefix} (hw : w % 8 = 0) (hv : p.Valid w) (h : Fits (p.enc w)) : Der roaipAddressTy .own (p.val w) (p.enc w) := by
  obtain ⟨h1, -, h3, -⟩ := hv
  refine der_sequence h (derMems_cons (der_prefix hw h1 h3 h.tlv.left) ?_)
  have h2 := h.tlv.right
  cases hm : p.maxLength with
  | none => exact derMems_none rfl derMems_nil
  | some m => rw [hm] at h2; exact derMems_last (der_int h2)

def RoaFamily.val (f : RoaFamily) : Val := .seq [some (.bytes (familyOctets f.v6)), some (.list (f.prefixes.map (RoaPrefix.val (width f.v6))))]

theorem RoaFamily.der {f : RoaFamily} (hv : ∀ p ∈ f.prefixes, p.Valid (width f.v6)) (h : Fits f.enc) : Der roaipAddressFamilyTy .own f.val f.enc :=
  der_sequence h (derMems_cons (der_octets (by decide) h.tlv.left)
    (derMems_last (der_list h.tlv.right fun p hp hf => RoaPrefix.der (width_mod _) (hv p hp) hf)))

def RoaSpec.val (o : RoaSpec) : Val := .seq [none, some (.bytes (intOctets o.asn)), some (.list (o.families.map RoaFamily.val))]

theorem RoaSpec.der {o : RoaSpec} (hv : o.Valid) (h : Fits o.enc) : Der routeOriginAttestationTy .own o.val o.enc :=
  der_sequence h (derMems_none rfl (derMems_cons (der_int h.tlv.left)
    (derMems_last (der_list h.tlv.right fun f hf hfit => RoaFamily.der (hv.2.2 f hf).2 hfit))))

/-- The structure that the program gets. -/
def RoaPrefix.c (w : Nat) (p : RoaPrefix) : Res.RoaAddr := ⟨⟨bitOctets w p.addr p.len, unusedBits p.len⟩, p.maxLength.map intOctets⟩
def RoaFamily.c (f : RoaFamily) : Res.RoaBlock := ⟨familyOctets f.v6, f.prefixes.map (RoaPrefix.c (width f.v6))⟩
def RoaSpec.c (o : RoaSpec) : Res.Roa := ⟨none, intOctets o.asn, o.families.map RoaFamily.c⟩

theorem roaAddrOf_val (w : Nat) (p : RoaPrefix) : roaAddrOf (p.val w) = some (p.c w) := by
  unfold RoaPrefix.val RoaPrefix.c roaAddrOf
  cases p.maxLength <;> rfl

theorem roaBlockOf_val (f : RoaFamily) : roaBlockOf f.val = some f.c := by
  simp only [RoaFamily.val, roaBlockOf, all_map (fun p _ => roaAddrOf_val (width f.v6) p), Option.map_some]; rfl

theorem roaOf_val (o : RoaSpec) : roaOf o.val = some o.c := by
  simp only [RoaSpec.val, roaOf, all_map (fun f _ => roaBlockOf_val f), optBytes]; rfl

theorem decodeRoa_enc {o : RoaSpec} (hv : o.Valid) (h : Fits o.enc) (nul : Nul) (rest : List Byte) : decodeRoa nul (o.enc ++ rest) = .ok o.c := by
  have h1 : asn1Decode nul routeOriginAttestationTy routeOriginAttestationCon (o.enc ++ rest) = .ok o.val :=
    ((C172_der _ Ex.roa_root nul _ _ rest (RoaSpec.der hv h) h).1).2 rfl
  unfold decodeRoa
  rw [h1]
  simp only [got, roaOf_val]

end Verif.Obj
