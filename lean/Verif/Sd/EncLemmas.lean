import Verif.Sd.SpecEnc
import Verif.Sd.Model
import Verif.Obj.DerLemmas
/-
The encoder's output is DER of the generated types.
-/
namespace Verif.Sd
open Verif.Res (Byte)
open Verif.Asn
open Verif.Obj

def attrVal (a : List Byte × List Byte) : Val := .seq [some (.bytes a.1), some (.list [.bytes a.2])]

def signerVal (o : Object) (as : List (List Byte × List Byte)) : Val :=
  .seq [some (.bytes (intOctets 3)), some (.alt 1 (.bytes o.keyId)), some (.seq [some (.bytes sha256Oid), none]), some (.list (as.map attrVal)),
    some (.seq [some (.bytes rsaOid), some (.bytes derNull)]), some (.bytes o.signature), none]

def sdVal (o : Object) (as : List (List Byte × List Byte)) : Val :=
  .seq [some (.bytes (intOctets 3)), some (.list [.seq [some (.bytes sha256Oid), none]]), some (.seq [some (.bytes o.type), some (.bytes o.content)]),
    some (.list [.bytes o.cert]), none, some (.list [signerVal o as])]

def ciVal (o : Object) (as : List (List Byte × List Byte)) : Val := .seq [some (.bytes signedDataOid), some (.bytes (o.signedData as))]

theorem der_oid {b : List Byte} (h : Fits (derOid b)) : Der (.prim .plain [24]) .own (.bytes b) (derOid b) := der_plain (by decide) h

theorem derSeq_length (c : List Byte) : c.length < (derSeq c).length := tlv_length _ _

theorem Fits.tl {t : Byte} {c : List Byte} (h : Fits (tlv t c)) : Fits c := Nat.lt_trans (tlv_length t c) h

/-- A SET OF, or the same with another tag. -/
theorem der_setOf {tags : List Tag} {g : Tagging} {tag : Option Tag} {el : Ty} {vs : List Val} {cs : List (List Byte)} {t : Byte} {k : Nat} (hk : g.tags tags = [k])
    (ht : IdOctet k true t) (h : Fits (tlv t cs.flatten)) (hf : List.Forall₂ (fun x c => Der el .own x c) vs cs) :
    Der (.setOf tags tag el) g (.list vs) (tlv t cs.flatten) := by
  unfold Der
  refine ⟨cs, vs, ?_, rfl, hf⟩
  rw [hk]
  exact dnest1 ht h

theorem der_set1 {tags : List Tag} {g : Tagging} {tag : Option Tag} {el : Ty} {v : Val} {c : List Byte} {t : Byte} {k : Nat} (hk : g.tags tags = [k])
    (ht : IdOctet k true t) (h : Fits (tlv t c)) (hf : Der el .own v c) : Der (.setOf tags tag el) g (.list [v]) (tlv t c) := by
  have := der_setOf (tag := tag) (el := el) (vs := [v]) (cs := [c]) hk ht (by simpa using h) (.cons hf .nil)
  simpa using this

theorem els_prim {tag : Nat} {t : Byte} {c : List Byte} (ht : IdOctet tag false t) (h : Fits (tlv t c)) : DEls .one (tlv t c) := .prim (tlv_dtlv ht (Fits.tl h))

theorem els_constr {tag : Nat} {t : Byte} {c : List Byte} (ht : IdOctet tag true t) (h : Fits (tlv t c)) (hc : DEls .seq c) : DEls .one (tlv t c) :=
  .constr (tlv_dtlv ht (Fits.tl h)) hc

theorem els_last {c : List Byte} (h : DEls .one c) : DEls .seq c := by
  have := DEls.cons h .nil
  rwa [List.append_nil] at this

theorem der_any {c : List Byte} (h : DEls .one c) : Der anyTy .own (.bytes c) c := by
  unfold anyTy Der
  exact ⟨rfl, h⟩

theorem attr_els {t v : List Byte} (h : Fits (encAttr t v)) (hv : DEls .one v) : DEls .one (encAttr t v) := by
  have h1 : Fits (derOid t ++ derSet v) := Fits.tl h
  exact els_constr (tag := 64) (by decide) h (.cons (els_prim (tag := 24) (by decide) h1.left) (els_last (els_constr (tag := 68) (by decide) h1.right (els_last hv))))

theorem attr_der {t v : List Byte} (h : Fits (encAttr t v)) (hv : DEls .one v) : Der cmsAttributeTy .own (attrVal (t, v)) (encAttr t v) := by
  have h1 : Fits (derOid t ++ derSet v) := Fits.tl h
  exact der_sequence h (derMems_cons (der_oid h1.left) (derMems_last (der_set1 (k := 68) rfl (by decide) h1.right (der_any hv))))

theorem attrs_els {as : List (List Byte × List Byte)} (h : Fits (encAttrs as)) (hv : ∀ a ∈ as, DEls .one a.2) : DEls .seq (encAttrs as) := by
  induction as with
  | nil => exact .nil
  | cons a as ih =>
    have e : encAttrs (a :: as) = encAttr a.1 a.2 ++ encAttrs as := rfl
    rw [e] at h ⊢
    exact .cons (attr_els h.left (hv a (by simp))) (ih h.right fun b hb => hv b (by simp [hb]))

theorem attrs_der {g : Tagging} {as : List (List Byte × List Byte)} {t : Byte} {k : Nat} (hk : g.tags [68] = [k]) (ht : IdOctet k true t) (h : Fits (tlv t (encAttrs as)))
    (hv : ∀ a ∈ as, DEls .one a.2) : Der signedAttributesTy g (.list (as.map attrVal)) (tlv t (encAttrs as)) := by
  have e : encAttrs as = (as.map fun a => encAttr a.1 a.2).flatten := by rw [encAttrs, List.flatMap_def]
  have hf : Fits (encAttrs as) := Fits.tl h
  rw [e] at h ⊢
  refine der_setOf hk ht h ?_
  clear h
  induction as with
  | nil => exact .nil
  | cons a as ih =>
    have e' : encAttrs (a :: as) = encAttr a.1 a.2 ++ encAttrs as := rfl
    rw [e'] at hf
    exact .cons (attr_der hf.left (hv a (by simp))) (ih (fun b hb => hv b (by simp [hb])) (by rw [encAttrs, List.flatMap_def]) hf.right)

theorem alg_der {t : List Byte} (h : Fits (derSeq (derOid t))) : Der digestAlgorithmIdentifierTy .own (.seq [some (.bytes t), none]) (derSeq (derOid t)) := by
  refine der_sequence h ?_
  have := derMems_cons (h := ⟨some 24, .none, false, false, [24]⟩) (der_oid (Fits.tl h)) (derMems_none (h := ⟨none, .none, true, true, []⟩) (ty := anyTy) rfl derMems_nil)
  rwa [List.append_nil] at this

theorem alg_els {t : List Byte} (h : Fits (derSeq (derOid t))) : DEls .one (derSeq (derOid t)) :=
  els_constr (tag := 64) (by decide) h (els_last (els_prim (tag := 24) (by decide) (Fits.tl h)))

theorem signer_der {o : Object} {as : List (List Byte × List Byte)} (h : Fits (o.signer as)) (hv : ∀ a ∈ as, DEls .one a.2) :
    Der signerInfoTy .own (signerVal o as) (o.signer as) := by
  have h1 := Fits.tl h
  have h2 := h1.right
  have h3 := h2.right
  have h4 := h3.right
  have h5 := h4.right
  have hg := Fits.tl h5.left
  refine der_sequence h (derMems_cons (der_int h1.left) (derMems_cons ?_ (derMems_cons (alg_der h3.left) (derMems_cons (attrs_der (k := 2) rfl (by decide) h4.left hv)
    (derMems_cons ?_ ?_)))))
  · show Der signerIdentifierTy .own _ _
    unfold signerIdentifierTy Der
    refine ⟨_, rfl, ?_⟩
    unfold DerAlts
    right
    unfold DerAlts
    left
    refine ⟨_, rfl, ?_⟩
    show Der cmsSubjectKeyIdentifierTy (.implicit 2) _ _
    unfold cmsSubjectKeyIdentifierTy Der
    exact ⟨_, dnest1 (by decide) h2.left, rfl⟩
  · exact der_sequence h5.left (derMems_cons (der_oid hg.left) (derMems_last (der_any (els_prim (tag := 20) (by decide) hg.right))))
  · have := derMems_cons (h := ⟨some 16, .none, false, false, [16]⟩) (ty := signatureValueTy) (der_octets (tag := 16) (t := 4) (all := [16]) (c := o.signature) (by decide) h5.right)
      (derMems_none (h := ⟨some 6, .implicit, true, false, [6]⟩) (ty := unsignedAttributesTy) rfl derMems_nil)
    rwa [List.append_nil] at this

theorem signer_els {o : Object} {as : List (List Byte × List Byte)} (h : Fits (o.signer as)) (hv : ∀ a ∈ as, DEls .one a.2) : DEls .one (o.signer as) := by
  have h1 := Fits.tl h
  have h2 := h1.right
  have h3 := h2.right
  have h4 := h3.right
  have h5 := h4.right
  have hg := Fits.tl h5.left
  exact els_constr (tag := 64) (by decide) h (.cons (els_prim (tag := 8) (by decide) h1.left) (.cons (els_prim (tag := 2) (by decide) h2.left) (.cons (alg_els h3.left)
    (.cons (els_constr (tag := 2) (by decide) h4.left (attrs_els (Fits.tl h4.left) hv)) (.cons (els_constr (tag := 64) (by decide) h5.left
      (.cons (els_prim (tag := 24) (by decide) hg.left) (els_last (els_prim (tag := 20) (by decide) hg.right)))) (els_last (els_prim (tag := 16) (by decide) h5.right)))))))

theorem sd_der {o : Object} {as : List (List Byte × List Byte)} (h : Fits (o.signedData as)) (hc : DEls .one o.cert) (hv : ∀ a ∈ as, DEls .one a.2) :
    Der signedDataTy .own (sdVal o as) (o.signedData as) := by
  have h1 := Fits.tl h
  have h2 := h1.right
  have h3 := h2.right
  have h4 := h3.right
  have he := Fits.tl h3.left
  refine der_sequence h (derMems_cons (der_int h1.left) (derMems_cons (der_set1 (k := 68) rfl (by decide) h2.left (alg_der (Fits.tl h2.left))) (derMems_cons ?_
    (derMems_cons (der_set1 (k := 2) rfl (by decide) h4.left (der_any hc)) (derMems_none rfl
      (derMems_last (der_set1 (k := 68) rfl (by decide) h4.right (signer_der (Fits.tl h4.right) hv))))))))
  refine der_sequence h3.left (derMems_cons (der_oid he.left) (derMems_last ?_))
  show Der octetSTRINGTy (.explicit 2) _ _
  unfold octetSTRINGTy Der
  exact ⟨_, ⟨_, dnest1 (tag := 16) (constr := false) (t := 4) (c := o.content) (by decide) (Fits.tl he.right), tlv_dtlv (tag := 2) (constr := true) (by decide) (Fits.tl he.right)⟩, rfl⟩

theorem sd_els {o : Object} {as : List (List Byte × List Byte)} (h : Fits (o.signedData as)) (hc : DEls .one o.cert) (hv : ∀ a ∈ as, DEls .one a.2) :
    DEls .one (o.signedData as) := by
  have h1 := Fits.tl h
  have h2 := h1.right
  have h3 := h2.right
  have h4 := h3.right
  have he := Fits.tl h3.left
  exact els_constr (tag := 64) (by decide) h (.cons (els_prim (tag := 8) (by decide) h1.left) (.cons (els_constr (tag := 68) (by decide) h2.left (els_last (alg_els (Fits.tl h2.left))))
    (.cons (els_constr (tag := 64) (by decide) h3.left (.cons (els_prim (tag := 24) (by decide) he.left)
      (els_last (els_constr (tag := 2) (by decide) he.right (els_last (els_prim (tag := 16) (by decide) (Fits.tl he.right)))))))
    (.cons (els_constr (tag := 2) (by decide) h4.left (els_last hc)) (els_last (els_constr (tag := 68) (by decide) h4.right (els_last (signer_els (Fits.tl h4.right) hv))))))))

theorem ci_der {o : Object} {as : List (List Byte × List Byte)} (h : Fits (o.file as)) (hc : DEls .one o.cert) (hv : ∀ a ∈ as, DEls .one a.2) :
    Der contentInfoTy .own (ciVal o as) (o.file as) := by
  have h1 := Fits.tl h
  refine der_sequence h (derMems_cons (der_oid h1.left) (derMems_last ?_))
  show Der anyTy (.explicit 2) _ _
  unfold anyTy Der
  exact ⟨_, rfl, tlv_dtlv (tag := 2) (constr := true) (by decide) (Fits.tl h1.right), sd_els (Fits.tl h1.right) hc hv⟩

end Verif.Sd
