import Verif.Sd.Model
import Verif.Sd.Walk
import Verif.Obj.ShapeProps
/-
What is decoded can be read.
-/
namespace Verif.Sd
open Verif.Res (Byte)
open Verif.Asn
open Verif.Obj (Got got all all_some must got_ok got_hang)
open Verif.Cms (SignedData SignerInfo AlgId Attr Sid)

theorem optional_some {α : Type} {f : Val → Option α} {ty : Ty} (hf : ∀ x, HasTy ty x → ∃ a, f x = some a) {o : Option Val}
    (h : ∀ x, o = some x → HasTy ty x) : ∃ m, optional f o = some m := by
  cases o with
  | none => exact ⟨none, rfl⟩
  | some x => obtain ⟨a, ha⟩ := hf x (h x rfl); exact ⟨some a, by simp only [optional, ha, Option.map_some]⟩

theorem bytesOf_some {x : Val} (h : ∃ b, x = .bytes b) : ∃ b, bytesOf x = some b := by obtain ⟨b, rfl⟩ := h; exact ⟨b, rfl⟩

theorem algOf_some {v : Val} (h : HasTy algorithmIdentifierTy v) : ∃ a, algOf v = some a := by
  obtain ⟨vs, rfl, o1, w1, rfl, m1, t1, o2, w2, rfl, -, t2, rfl⟩ := h
  obtain ⟨x, rfl, b, rfl⟩ := must rfl m1 t1
  obtain ⟨m, hm⟩ := optional_some (ty := anyTy) (fun x hx => bytesOf_some hx) t2
  exact ⟨_, by simp only [algOf, hm, Option.map_some]; rfl⟩

theorem attrOf_some {v : Val} (h : HasTy cmsAttributeTy v) : ∃ a, attrOf v = some a := by
  obtain ⟨vs, rfl, o1, w1, rfl, m1, t1, o2, w2, rfl, m2, t2, rfl⟩ := h
  obtain ⟨x, rfl, b, rfl⟩ := must rfl m1 t1
  obtain ⟨y, rfl, l, rfl, hl⟩ := must rfl m2 t2
  obtain ⟨as, has⟩ := all_some fun v hv => bytesOf_some (hl v hv)
  exact ⟨_, by simp only [attrOf, has, Option.map_some]; rfl⟩

theorem attrsOf_some {v : Val} (h : HasTy signedAttributesTy v) : ∃ a, attrsOf v = some a := by
  obtain ⟨l, rfl, hl⟩ := h
  exact all_some fun v hv => attrOf_some (hl v hv)

theorem sidOf_some {v : Val} (h : HasTy signerIdentifierTy v) : ∃ a, sidOf v = some a := by
  obtain ⟨i, x, rfl, h⟩ := h
  match i, h with
  | 0, h => exact ⟨_, rfl⟩
  | 1, h => obtain ⟨b, rfl⟩ := h; exact ⟨_, rfl⟩

theorem countOf_some {ty : Ty} {t : List Tag} {o : Option Tag} {v : Val} (h : HasTy (.setOf t o ty) v) : ∃ a, countOf v = some a := by
  obtain ⟨l, rfl, hl⟩ := h
  exact ⟨_, rfl⟩

theorem signerOf_some {v : Val} (h : HasTy signerInfoTy v) : ∃ a, signerOf v = some a := by
  obtain ⟨vs, rfl, o1, w1, rfl, m1, t1, o2, w2, rfl, m2, t2, o3, w3, rfl, m3, t3, o4, w4, rfl, -, t4, o5, w5, rfl, m5, t5, o6, w6, rfl, m6, t6,
    o7, w7, rfl, -, t7, rfl⟩ := h
  obtain ⟨x1, rfl, b1, rfl⟩ := must rfl m1 t1
  obtain ⟨x2, rfl, h2⟩ := must rfl m2 t2
  obtain ⟨x3, rfl, h3⟩ := must rfl m3 t3
  obtain ⟨x5, rfl, h5⟩ := must rfl m5 t5
  obtain ⟨x6, rfl, b6, rfl⟩ := must rfl m6 t6
  obtain ⟨a2, e2⟩ := sidOf_some h2
  obtain ⟨a3, e3⟩ := algOf_some h3
  obtain ⟨a5, e5⟩ := algOf_some h5
  obtain ⟨a4, e4⟩ := optional_some (fun x hx => attrsOf_some hx) t4
  obtain ⟨a7, e7⟩ := optional_some (fun x hx => countOf_some hx) t7
  exact ⟨_, by simp only [signerOf, e2, e3, e4, e5, e7]; rfl⟩

theorem sdOf_some {encap : Ty} (he : ∀ x, HasTy encap x → ∃ t c m, x = .seq [some (.bytes t), c] ∧ optional bytesOf c = some m) {v : Val}
    (h : HasTy (sdTy encap) v) : ∃ a, sdOf v = some a := by
  obtain ⟨vs, rfl, o1, w1, rfl, m1, t1, o2, w2, rfl, m2, t2, o3, w3, rfl, m3, t3, o4, w4, rfl, -, t4, o5, w5, rfl, -, t5, o6, w6, rfl, m6, t6, rfl⟩ := h
  obtain ⟨x1, rfl, b1, rfl⟩ := must rfl m1 t1
  obtain ⟨x2, rfl, l2, rfl, h2⟩ := must rfl m2 t2
  obtain ⟨x3, rfl, h3⟩ := must rfl m3 t3
  obtain ⟨x6, rfl, l6, rfl, h6⟩ := must rfl m6 t6
  obtain ⟨t, c, m, rfl, hm⟩ := he _ h3
  obtain ⟨a2, e2⟩ := all_some fun v hv => algOf_some (h2 v hv)
  obtain ⟨a6, e6⟩ := all_some fun v hv => signerOf_some (h6 v hv)
  obtain ⟨a4, e4⟩ := optional_some (f := certsOf) (ty := certificateSetTy)
    (fun x hx => by obtain ⟨l, rfl, hl⟩ := hx; exact all_some fun v hv => bytesOf_some (hl v hv)) t4
  obtain ⟨a5, e5⟩ := optional_some (fun x hx => countOf_some hx) t5
  exact ⟨_, by simp only [sdOf, hm, e2, e4, e5, e6]; rfl⟩

theorem sdOf_cms {v : Val} (h : HasTy signedDataTy v) : ∃ a, sdOf v = some a := by
  refine sdOf_some (encap := encapsulatedContentInfoTy) (fun x hx => ?_) h
  obtain ⟨vs, rfl, o1, w1, rfl, m1, t1, o2, w2, rfl, -, t2, rfl⟩ := hx
  obtain ⟨x, rfl, b, rfl⟩ := must rfl m1 t1
  obtain ⟨m, hm⟩ := optional_some (ty := octetSTRINGTy) (fun x hx => bytesOf_some hx) t2
  exact ⟨b, o2, m, rfl, hm⟩

theorem sdOf_pkcs7 {v : Val} (h : HasTy signedDataPKCS7Ty v) : ∃ a, sdOf v = some a := by
  refine sdOf_some (encap := encapsulatedContentInfoPKCS7Ty) (fun x hx => ?_) h
  obtain ⟨vs, rfl, o1, w1, rfl, m1, t1, o2, w2, rfl, -, t2, rfl⟩ := hx
  obtain ⟨x, rfl, b, rfl⟩ := must rfl m1 t1
  obtain ⟨m, hm⟩ := optional_some (ty := anyTy) (fun x hx => bytesOf_some hx) t2
  exact ⟨b, o2, m, rfl, hm⟩

theorem contentInfoOf_some {v : Val} (h : HasTy contentInfoTy v) : ∃ a, contentInfoOf v = some a := by
  obtain ⟨vs, rfl, o1, w1, rfl, m1, t1, o2, w2, rfl, m2, t2, rfl⟩ := h
  obtain ⟨x, rfl, b, rfl⟩ := must rfl m1 t1
  obtain ⟨y, rfl, c, rfl⟩ := must rfl m2 t2
  exact ⟨_, rfl⟩

theorem got_good {p : Ty × Con} (hp : p ∈ roots) (hne : p.1 ≠ asIdentifiersTy) {α : Type} {f : Val → Option α} (hf : ∀ v, HasTy p.1 v → ∃ a, f v = some a)
    (nul : Nul) (s : List Byte) : got f (asn1Decode nul p.1 p.2 s) ≠ .hang ∧ got f (asn1Decode nul p.1 p.2 s) ≠ .bad :=
  ⟨got_hang (C169_ends_partial p hp hne nul s), got_ok hp hf nul s⟩

end Verif.Sd
