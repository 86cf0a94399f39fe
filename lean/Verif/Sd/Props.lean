import Verif.Sd.ObjLemmas
import Verif.Sd.Example
/-
C182 to C184: signed objects, from the file to the content.
-/
namespace Verif.Sd
open Verif.Res (Byte)
open Verif.Asn
open Verif.Obj (Got got all)
open Verif.Cms (SignedData SignerInfo AlgId Attr Sid Env signedBytes findSignedAttrs signedObjectValidate AttrIs Names names_iff Profile
  C86_accepts oidContentType oidMessageDigest oidSigningTime)

theorem holds_of {ty : Ty} {con : Con} {nul : Nul} {x c : List Byte} (h : (got bytesOf (asn1Decode nul ty con x)).toOption = some c) : Holds ty x c := by
  cases hg : got bytesOf (asn1Decode nul ty con x) with
  | error => rw [hg] at h; cases h
  | hang => rw [hg] at h; cases h
  | bad => rw [hg] at h; cases h
  | ok a =>
    rw [hg] at h
    cases h
    obtain ⟨v, n, h1, h2⟩ := got_inv hg
    cases v <;> cases h2
    exact ⟨n, h1⟩

/-- What an accepted file consists of. -/
theorem accepted_inv {C : Type} {y : Crypto C} {nuls : Nuls} {oid : List Nat} {file x : List Byte} (h : signedObject y nuls oid file = .ok x) :
    ∃ c sd, signedObjectDecode nuls file = .ok (c, sd) ∧ signedObjectValidate (y.env nuls) oid c sd = .ok ∧ sd.eContent = some x := by
  unfold signedObject at h
  cases hd : signedObjectDecode nuls file with
  | hang => rw [hd] at h; cases h
  | bad => rw [hd] at h; cases h
  | error => rw [hd] at h; cases h
  | ok p =>
    obtain ⟨c, sd⟩ := p
    rw [hd] at h
    simp only at h
    cases hv : signedObjectValidate (y.env nuls) oid c sd with
    | err => rw [hv] at h; cases h
    | crash => rw [hv] at h; cases h
    | ok =>
      rw [hv] at h
      simp only at h
      cases he : sd.eContent with
      | none => rw [he] at h; cases h
      | some z => rw [he] at h; cases h; exact ⟨c, sd, rfl, hv, he⟩

/-! ### C182: what is signed is what is used -/

theorem attrOf_one {v : Val} {t x : List Byte} (h : attrOf v = some ⟨t, [x]⟩) : v = attrV t x := by
  unfold attrOf at h
  split at h
  · rename_i t' l
    cases ha : all bytesOf l with
    | none => rw [ha] at h; cases h
    | some bs =>
      rw [ha] at h
      simp only [Option.map_some, Option.some.injEq, Attr.mk.injEq] at h
      obtain ⟨rfl, rfl⟩ := h
      cases l with
      | nil => cases ha
      | cons w l =>
        obtain ⟨b, bs, e, h1, h2⟩ := all_cons ha
        simp only [List.cons.injEq] at e
        obtain ⟨rfl, rfl⟩ := e
        have hl := all_length h2
        have : l = [] := List.length_eq_zero_iff.1 hl.symm
        subst this
        cases w <;> cases h1
        rfl
  · cases h

theorem attrs_vals : ∀ {l : List Val} {as : List Attr}, all attrOf l = some as → (∀ a ∈ as, ∃ x, a.values = [x]) → l = as.map fun a => attrV a.type (a.values.headD []) := by
  intro l
  induction l with
  | nil => intro as h _; cases h; rfl
  | cons v l ih =>
    intro as h hv
    obtain ⟨a, bs, rfl, h1, h2⟩ := all_cons h
    obtain ⟨x, hx⟩ := hv a (by simp)
    obtain ⟨t, vs⟩ := a
    simp only at hx
    subst hx
    rw [List.map_cons, ← ih h2 fun b hb => hv b (by simp [hb])]
    rw [attrOf_one h1]
    rfl

/-- The attributes are the ones that were decoded. -/
theorem attributes_of {v : Val} {as : List Attr} {ct md st : Attr} {type digest : List Byte} (h : attrsOf v = some as) (hp : as.Perm [ct, md, st])
    (h1 : AttrIs oidContentType (fun x => Holds objectIDENTIFIERTy x type) ct) (h2 : AttrIs oidMessageDigest (fun x => Holds messageDigestTy x digest) md)
    (h3 : AttrIs oidSigningTime (fun _ => True) st) : ∃ l, v = .list l ∧ Attributes l type digest := by
  cases v with
  | list l =>
    refine ⟨l, rfl, ?_⟩
    obtain ⟨n1, x1, e1, k1⟩ := h1
    obtain ⟨n2, x2, e2, k2⟩ := h2
    obtain ⟨n3, x3, e3, -⟩ := h3
    have hs : ∀ a ∈ as, ∃ x, a.values = [x] := by
      intro a ha
      have := hp.subset ha
      simp only [List.mem_cons, List.not_mem_nil, or_false] at this
      rcases this with rfl | rfl | rfl
      · exact ⟨_, e1⟩
      · exact ⟨_, e2⟩
      · exact ⟨_, e3⟩
    refine ⟨ct.type, md.type, st.type, x1, x2, x3, ?_, n1, k1, n2, k2, n3⟩
    rw [attrs_vals h hs]
    have := hp.map fun a => attrV a.type (a.values.headD [])
    simpa [e1, e2, e3] using this
  | _ => cases h

/-- What the octets that are verified say, if the object is accepted. -/
theorem says_of {C : Type} {y : Crypto C} {nuls : Nuls} {oid : List Nat} {file c x b : List Byte} {sd : SignedData} {si : Cms.SignerInfo} {cert sid content : List Byte}
    (hlen : file.length < 2 ^ 30) (hd : signedObjectDecode nuls file = .ok (c, sd)) (hp : Cms.Profile (y.env nuls) oid sd si cert sid content) (v6 : signedBytes c = .bytes b)
    (hx : sd.eContent = some x) : Says b sd.eContentType (y.sha256 x) ∨ b = [0x31] := by
  obtain ⟨hc, hsd⟩ := signedObjectDecode_inv hd
  have hcl := contentInfo_length hc
  by_cases hb : b = [0x31]
  · exact .inr hb
  · left
    obtain ⟨pre, a, post, v, as, w1, w2, w3, w4, w5, w6⟩ := signed_attrs (by omega) hsd v6 hp.signer hb
    obtain ⟨as', ct, md, st, e, hperm, ⟨n1, q1, m1, k1⟩, ⟨n2, q2, m2, k2⟩, k3⟩ := hp.attrs
    rw [w5] at e
    cases e
    have hcx := hp.hasContent
    rw [hx] at hcx
    cases hcx
    obtain ⟨l, rfl, hat⟩ := attributes_of w4 hperm ⟨n1, q1, m1, holds_of k1⟩ ⟨n2, q2, m2, holds_of k2⟩ k3
    exact ⟨l, w3, hat⟩

/-- **C182.** If a file is accepted, then there are octets that the certificate's key signed, and, decoded on their own, they say what the
object's type is and what the content's hash is. Missing: signed attributes of indefinite length; then the octet 0x31 alone is verified. -/
theorem C182_authentic_partial {C : Type} (y : Crypto C) (nuls : Nuls) (oid : List Nat) (file x : List Byte) (hlen : file.length < 2 ^ 30)
    (h : signedObject y nuls oid file = .ok x) :
    ∃ b type, Signed y b ∧ Names type oid ∧ (Says b type (y.sha256 x) ∨ b = [0x31]) := by
  obtain ⟨c, sd, hd, hv, hx⟩ := accepted_inv h
  obtain ⟨si, cert, sid, content, cc, b, hp, v1, v2, v3, v4, v5, v6, v7⟩ := (C86_accepts _ _ _ _).1 hv
  exact ⟨b, _, ⟨cert, cc, sid, si.signature, v1, v2, v3, v4, v5, v7⟩, hp.type, says_of hlen hd hp v6 hx⟩

/-- The octets that are verified are part of the file: but for their first one. -/
theorem C182_in_file {C : Type} (y : Crypto C) (nuls : Nuls) (oid : List Nat) (file x : List Byte) (hlen : file.length < 2 ^ 30)
    (h : signedObject y nuls oid file = .ok x) :
    ∃ c a b sd, contentInfoDecode nuls file = .ok c ∧ signedDataDecode nuls c = .ok sd ∧ signedBytes c = .bytes b ∧ b = 0x31 :: a ∧
      (a ≠ [] → ∃ pre post, c = pre ++ 0xA0 :: (a ++ post)) := by
  obtain ⟨c, sd, hd, hv, hx⟩ := accepted_inv h
  obtain ⟨hc, hsd⟩ := signedObjectDecode_inv hd
  have hcl := contentInfo_length hc
  obtain ⟨si, cert, sid, content, cc, b, hp, -, -, -, -, -, v6, -⟩ := (C86_accepts _ _ _ _).1 hv
  by_cases hb : b = [0x31]
  · exact ⟨c, [], b, sd, hc, hsd, v6, hb, fun h => absurd rfl h⟩
  · obtain ⟨pre, a, post, v, as, w1, w2, -⟩ := signed_attrs (by omega) hsd v6 hp.signer hb
    exact ⟨c, a, b, sd, hc, hsd, v6, w2, fun _ => ⟨pre, post, w1⟩⟩

namespace Ex

/-- The attributes have an indefinite length; the key has signed one octet. -/
def crypto31 : Crypto Byte := { crypto with verify := fun _ b s => b == [0x31] && s == [7] }
def bad1 : List Byte := file (indefinite (attrs 6)) [1, 2, 3] [7]
def bad2 : List Byte := file (indefinite (attrs 9)) [4, 5] [7]

theorem bad1_accepted : signedObject crypto31 nuls roaOid bad1 = .ok [1, 2, 3] := by decide +kernel
theorem bad2_accepted : signedObject crypto31 nuls roaOid bad2 = .ok [4, 5] := by decide +kernel

end Ex

/-- The octet says nothing. -/
theorem says_nothing (type digest : List Byte) : ¬ Says [0x31] type digest := by
  rintro ⟨l, h, -⟩
  have : (match berDecode signedAttributesTy [0x31] with | .ok _ _ => true | _ => false) = false := by decide +kernel
  rw [h] at this
  cases this

/-- **C182 does not hold in general.** Two files with different contents are accepted, with the same signature, and it is one of the octet 0x31. -/
theorem C182_refuted : (¬ ∀ (y : Crypto Byte) (nuls : Nuls) (oid : List Nat) (file x : List Byte), file.length < 2 ^ 30 → signedObject y nuls oid file = .ok x →
      ∃ b type, Signed y b ∧ Names type oid ∧ Says b type (y.sha256 x)) ∧
    ∃ (y : Crypto Byte) (nuls : Nuls) (oid : List Nat) (file1 file2 x1 x2 : List Byte), signedObject y nuls oid file1 = .ok x1 ∧ signedObject y nuls oid file2 = .ok x2 ∧
      y.sha256 x1 ≠ y.sha256 x2 ∧ ∀ c b s, y.verify c b s = true → b = [0x31] ∧ s = [7] := by
  have hv : ∀ c b s, Ex.crypto31.verify c b s = true → b = [0x31] ∧ s = [7] := by
    intro c b s h
    simpa [Ex.crypto31] using h
  refine ⟨fun h => ?_, Ex.crypto31, Ex.nuls, Ex.roaOid, Ex.bad1, Ex.bad2, _, _, Ex.bad1_accepted, Ex.bad2_accepted, by decide, hv⟩
  obtain ⟨b, type, ⟨_, _, _, _, -, -, -, -, -, hs⟩, -, hb⟩ := h Ex.crypto31 Ex.nuls Ex.roaOid Ex.bad1 _ (by decide +kernel) Ex.bad1_accepted
  obtain ⟨rfl, -⟩ := hv _ _ _ hs
  exact says_nothing _ _ hb

/-- The hypotheses of C182 hold, and so does the first alternative. -/
example : ∃ b type, Signed Ex.crypto b ∧ Names type Ex.roaOid ∧ (Says b type [6] ∨ b = [0x31]) :=
  C182_authentic_partial Ex.crypto Ex.nuls Ex.roaOid Ex.good [1, 2, 3] (by decide +kernel) Ex.accepted

/-! ### C183: a signature is for one content -/

theorem holds_unique {ty : Ty} {x c c' : List Byte} (h : Holds ty x c) (h' : Holds ty x c') : c = c' := by
  obtain ⟨n, h⟩ := h
  obtain ⟨n', h'⟩ := h'
  rw [h] at h'
  cases h'
  rfl

/-- **C183.** Octets that are signed say one thing: there are no two types, and no two digests, that the same octets stand for. -/
theorem C183_unique (b type digest type' digest' : List Byte) (h : Says b type digest) (h' : Says b type' digest') : type = type' ∧ digest = digest' := by
  obtain ⟨l, h1, t1, t2, t3, v1, v2, v3, hp, n1, k1, n2, k2, n3⟩ := h
  obtain ⟨l', h1', t1', t2', t3', v1', v2', v3', hp', n1', k1', n2', k2', n3'⟩ := h'
  rw [h1] at h1'
  cases h1'
  have one : ∀ {t x t' x'}, attrV t x = attrV t' x' → t = t' ∧ x = x' := by
    intro t x t' x' h
    simp only [attrV, Val.seq.injEq, List.cons.injEq, Option.some.injEq, Val.bytes.injEq, Val.list.injEq, and_true] at h
    exact h
  have no : ∀ {t arcs arcs'}, Names t arcs → Names t arcs' → arcs = arcs' := fun h h' =>
    Option.some.inj (((names_iff _ _).2 h).symm.trans ((names_iff _ _).2 h'))
  have hq := hp.symm.trans hp'
  have m1 := hq.subset (List.mem_cons_self ..)
  have m2 := hq.subset (List.mem_cons_of_mem _ (List.mem_cons_self ..))
  simp only [List.mem_cons, List.not_mem_nil, or_false] at m1 m2
  refine ⟨?_, ?_⟩
  · rcases m1 with e | e | e <;> obtain ⟨rfl, rfl⟩ := one e
    · exact holds_unique k1 k1'
    · exact absurd (no n1 n2') (by decide)
    · exact absurd (no n1 n3') (by decide)
  · rcases m2 with e | e | e <;> obtain ⟨rfl, rfl⟩ := one e
    · exact absurd (no n2 n1') (by decide)
    · exact holds_unique k2 k2'
    · exact absurd (no n2 n3') (by decide)

/-- So, if the keys of all the certificates that are accepted have only signed one string of octets, then all of the files that are accepted have the same
type, and their contents have the same hash. -/
theorem C183_one_content {C : Type} (y : Crypto C) (b : List Byte) (hb : b ≠ [0x31]) (hs : ∀ b', Signed y b' → b' = b) (nuls nuls' : Nuls) (oid oid' : List Nat)
    (file file' x x' : List Byte) (hl : file.length < 2 ^ 30) (hl' : file'.length < 2 ^ 30) (h : signedObject y nuls oid file = .ok x)
    (h' : signedObject y nuls' oid' file' = .ok x') : oid = oid' ∧ y.sha256 x = y.sha256 x' := by
  obtain ⟨b1, t1, s1, n1, k1⟩ := C182_authentic_partial y nuls oid file x hl h
  obtain ⟨b2, t2, s2, n2, k2⟩ := C182_authentic_partial y nuls' oid' file' x' hl' h'
  have e1 := hs _ s1
  have e2 := hs _ s2
  subst e1
  subst e2
  rcases k1 with k1 | k1
  · rcases k2 with k2 | k2
    · obtain ⟨rfl, e⟩ := C183_unique _ _ _ _ _ k1 k2
      exact ⟨Option.some.inj (((names_iff _ _).2 n1).symm.trans ((names_iff _ _).2 n2)), e⟩
    · exact absurd k2 hb
  · exact absurd k1 hb

/-- And nothing that the keys have not signed is accepted. -/
theorem C183_unforgeable {C : Type} (y : Crypto C) (hs : ∀ b type digest, Signed y b → b ≠ [0x31] ∧ ¬ Says b type digest) (nuls : Nuls) (oid : List Nat) (file x : List Byte)
    (hl : file.length < 2 ^ 30) : signedObject y nuls oid file ≠ .ok x := by
  intro h
  obtain ⟨b, type, s, -, k⟩ := C182_authentic_partial y nuls oid file x hl h
  obtain ⟨k1, k2⟩ := hs b type (y.sha256 x) s
  exact k.elim k2 k1

namespace Ex

/-- The key has signed the attributes of the example, and nothing else. -/
def crypto1 : Crypto Byte := { crypto with verify := fun _ b s => b == el 0x31 (attrs 6) && s == [7] }
def good1 : List Byte := file (definite (attrs 6)) [1, 2, 3] [7]
/-- The same hash. -/
def good2 : List Byte := file (definite (attrs 6)) [2, 4] [7]

theorem signed1 : ∀ b, Signed crypto1 b → b = el 0x31 (attrs 6) := by
  rintro b ⟨_, _, _, _, -, -, -, -, -, hv⟩
  simp only [crypto1, Bool.and_eq_true, beq_iff_eq] at hv
  exact hv.1

end Ex

example : Ex.crypto1.sha256 [1, 2, 3] = Ex.crypto1.sha256 [2, 4] :=
  (C183_one_content Ex.crypto1 (Ex.el 0x31 (Ex.attrs 6)) (by decide +kernel) Ex.signed1 Ex.nuls Ex.nuls Ex.roaOid Ex.roaOid Ex.good1 Ex.good2 _ _
    (by decide +kernel) (by decide +kernel) (by decide +kernel) (by decide +kernel)).2

/-- Octets that say something. -/
example : Says (Ex.el 0x31 (Ex.attrs 6)) Ex.roaType [6] := by
  have e : berDecode signedAttributesTy (Ex.el 0x31 (Ex.attrs 6)) =
      .ok (.list [attrV (Ex.attrType 3) (Ex.el 6 Ex.roaType), attrV (Ex.attrType 4) (Ex.el 4 [6]), attrV (Ex.attrType 5) (Ex.el 0x17 [])]) (Ex.el 0x31 (Ex.attrs 6)).length := by
    rfl
  exact ⟨_, e, _, _, _, _, _, _, .refl _, (names_iff _ _).1 (by decide +kernel), holds_of (con := objectIDENTIFIERCon) (nul := .never) (by decide +kernel),
    (names_iff _ _).1 (by decide +kernel), holds_of (con := messageDigestCon) (nul := .never) (by decide +kernel), (names_iff _ _).1 (by decide +kernel)⟩

/-! ### C184: any file is safe -/

theorem root_ci : (contentInfoTy, contentInfoCon) ∈ roots := by simp [roots]
theorem root_sd : (signedDataTy, signedDataCon) ∈ roots := by simp [roots]
theorem root_p7 : (signedDataPKCS7Ty, signedDataPKCS7Con) ∈ roots := by simp [roots]
theorem root_ct7 : (contentTypePKCS7Ty, contentTypePKCS7Con) ∈ roots := by simp [roots]
theorem root_oid : (objectIDENTIFIERTy, objectIDENTIFIERCon) ∈ roots := by simp [roots]
theorem root_md : (messageDigestTy, messageDigestCon) ∈ roots := by simp [roots]

theorem signedDataDecode_good (nuls : Nuls) (c : List Byte) : signedDataDecode nuls c ≠ .hang ∧ signedDataDecode nuls c ≠ .bad := by
  obtain ⟨a1, a2⟩ := got_good root_sd (by simp [signedDataTy, asIdentifiersTy]) (fun _ => sdOf_cms) (nuls signedDataTy c) c
  obtain ⟨b1, b2⟩ := got_good root_p7 (by simp [signedDataPKCS7Ty, asIdentifiersTy]) (fun _ => sdOf_pkcs7) (nuls signedDataPKCS7Ty c) c
  have h7 : decodePkcs7 nuls c ≠ .hang ∧ decodePkcs7 nuls c ≠ .bad := by
    unfold decodePkcs7
    cases hg : got sdOf (asn1Decode (nuls signedDataPKCS7Ty c) signedDataPKCS7Ty signedDataPKCS7Con c) with
    | hang => exact absurd hg b1
    | bad => exact absurd hg b2
    | error => simp
    | ok sd =>
      simp only
      cases he : sd.eContent with
      | none => simp
      | some x =>
        obtain ⟨c1, c2⟩ := got_good root_ct7 (by simp [contentTypePKCS7Ty, asIdentifiersTy]) (fun v hv => bytesOf_some (x := v) (by obtain ⟨b, rfl⟩ := hv; exact ⟨b, rfl⟩))
          (nuls contentTypePKCS7Ty x) x
        simp only
        cases hx : got bytesOf (asn1Decode (nuls contentTypePKCS7Ty x) contentTypePKCS7Ty contentTypePKCS7Con x) with
        | hang => exact absurd hx c1
        | bad => exact absurd hx c2
        | error => simp
        | ok z => simp
  unfold signedDataDecode
  cases hg : got sdOf (asn1Decode (nuls signedDataTy c) signedDataTy signedDataCon c) with
  | hang => exact absurd hg a1
  | bad => exact absurd hg a2
  | error => exact h7
  | ok sd => simp

theorem signedObjectDecode_good (nuls : Nuls) (file : List Byte) : signedObjectDecode nuls file ≠ .hang ∧ signedObjectDecode nuls file ≠ .bad := by
  obtain ⟨a1, a2⟩ := got_good root_ci (by simp [contentInfoTy, asIdentifiersTy]) (fun _ => contentInfoOf_some) (nuls contentInfoTy file) file
  unfold signedObjectDecode contentInfoDecode
  cases hg : got contentInfoOf (asn1Decode (nuls contentInfoTy file) contentInfoTy contentInfoCon file) with
  | hang => exact absurd hg a1
  | bad => exact absurd hg a2
  | error => simp
  | ok p =>
    obtain ⟨t, c⟩ := p
    simp only
    by_cases ht : Cms.oid2arcs t = some [1, 2, 840, 113549, 1, 7, 2]
    · rw [if_pos ht]
      simp only
      obtain ⟨b1, b2⟩ := signedDataDecode_good nuls c
      cases hs : signedDataDecode nuls c with
      | hang => exact absurd hs b1
      | bad => exact absurd hs b2
      | error => simp
      | ok sd => simp
    · rw [if_neg ht]; simp

theorem signatureOut_crash {C : Type} {env : Env C} {x : C} {c g : List Byte} (h : Cms.signatureOut env x c g = .crash) :
    signedBytes c = .crash := by
  unfold Cms.signatureOut at h
  cases hb : signedBytes c with
  | crash => rfl
  | err => rw [hb] at h; cases h
  | bytes b =>
    rw [hb] at h
    simp only at h
    cases hv : env.verify x b g <;> rw [hv] at h <;> simp at h

theorem handleCertificate_crash {C : Type} {env : Env C} {cert p c g : List Byte} (h : Cms.handleCertificate env cert p c g = .crash) :
    signedBytes c = .crash := by
  unfold Cms.handleCertificate at h
  cases hx : env.decodeCert cert with
  | none => rw [hx] at h; cases h
  | some x =>
    rw [hx] at h
    simp only at h
    by_cases h1 : env.chainOk x = false
    · rw [if_pos h1] at h; cases h
    rw [if_neg h1] at h
    by_cases h2 : env.profileOk x = false
    · rw [if_pos h2] at h; cases h
    rw [if_neg h2] at h
    by_cases h3 : env.extensionsOk x p = false
    · rw [if_pos h3] at h; cases h
    rw [if_neg h3] at h
    cases h4 : Cms.signatureOut env x c g with
    | crash => exact signatureOut_crash h4
    | err => rw [h4] at h; cases h
    | ok =>
      rw [h4] at h
      simp only at h
      by_cases h5 : env.resourcesOk x = true
      · rw [if_pos h5] at h; cases h
      · rw [if_neg h5] at h; cases h

theorem validate_crash {C : Type} {env : Env C} {oid : List Nat} {c : List Byte} {sd : SignedData} (h : signedObjectValidate env oid c sd = .crash) :
    ∃ si, sd.signerInfos = [si] ∧ signedBytes c = .crash := by
  unfold signedObjectValidate at h
  split at h
  · cases h
  · cases hg : Cms.getContentTypeAttr env sd with
    | none => rw [hg] at h; cases h
    | some ct =>
      rw [hg] at h
      simp only at h
      split at h
      · cases h
      · unfold Cms.signedDataValidate at h
        match hsi : sd.signerInfos, h with
        | [si], h =>
          refine ⟨si, rfl, ?_⟩
          simp only at h
          split at h
          · cases h
          · match hda : sd.digestAlgs, h with
            | [da], h =>
              simp only at h
              repeat' (split at h)
              all_goals first
                | cases h; done
                | exact handleCertificate_crash h
            | [], h => cases h
            | _ :: _ :: _, h => cases h
        | [], h => cases h
        | _ :: _ :: _, h => cases h

/-- **C184.** Whatever is in the file: the decoders and `find_signedAttrs` end, no byte outside of the buffers is read, and no null pointer is followed. -/
theorem C184_safe {C : Type} (y : Crypto C) (nuls : Nuls) (oid : List Nat) (file : List Byte) (hlen : file.length < 2 ^ 30) :
    signedObject y nuls oid file ≠ .hang ∧ signedObject y nuls oid file ≠ .crash := by
  obtain ⟨a1, a2⟩ := signedObjectDecode_good nuls file
  unfold signedObject
  cases hd : signedObjectDecode nuls file with
  | hang => exact absurd hd a1
  | bad => exact absurd hd a2
  | error => simp
  | ok p =>
    obtain ⟨c, sd⟩ := p
    simp only
    obtain ⟨hc, hsd⟩ := signedObjectDecode_inv hd
    have hcl := contentInfo_length hc
    cases hv : signedObjectValidate (y.env nuls) oid c sd with
    | err => simp
    | crash =>
      obtain ⟨si, hsi, hb⟩ := validate_crash hv
      exact absurd hb (signed_inside (by omega) hsd hsi)
    | ok =>
      obtain ⟨si, cert, sid, content, cc, b, hp, -⟩ := (C86_accepts _ _ _ _).1 hv
      simp only
      rw [hp.hasContent]
      simp

/-- Nor do the decoders of the attributes' values. -/
theorem C184_values (nuls : Nuls) (s : List Byte) : (decodeOid nuls s ≠ .hang ∧ decodeOid nuls s ≠ .bad) ∧ (decodeDigest nuls s ≠ .hang ∧ decodeDigest nuls s ≠ .bad) :=
  ⟨got_good root_oid (by simp [objectIDENTIFIERTy, asIdentifiersTy]) (fun v hv => bytesOf_some (x := v) (by obtain ⟨b, rfl⟩ := hv; exact ⟨b, rfl⟩)) _ s,
   got_good root_md (by simp [messageDigestTy, asIdentifiersTy]) (fun v hv => bytesOf_some (x := v) (by obtain ⟨b, rfl⟩ := hv; exact ⟨b, rfl⟩)) _ s⟩

/-- A file that ends too early, and one whose signature is another one's. -/
example : signedObject Ex.crypto Ex.nuls Ex.roaOid (Ex.good.take 100) = .error := by decide +kernel
example : signedObject Ex.crypto Ex.nuls Ex.roaOid (Ex.file (Ex.definite (Ex.attrs 6)) [1, 2, 3] [0xA5]) = .error := by decide +kernel
example : signedObject Ex.crypto Ex.nuls Ex.roaOid (Ex.file (Ex.definite (Ex.attrs 6)) [1, 2, 4] [0xA4]) = .error := by decide +kernel

end Verif.Sd
