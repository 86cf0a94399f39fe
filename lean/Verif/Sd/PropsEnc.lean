import Verif.Sd.EncLemmas
import Verif.Sd.Props
import Verif.Cms.SignProps
/-
C185: correct signed objects are accepted.
-/
namespace Verif.Sd
open Verif.Res (Byte be)
open Verif.Asn
open Verif.Obj
open Verif.Cms (SignedData SignerInfo AlgId Attr Sid IsOid Profile Names names_iff AttrIs IsSha256 IsRsa Layout Elem C86_accepts C84_partial C85_partial signedBytes oidContentType
  oidMessageDigest oidSigningTime)

def attrC (a : List Byte × List Byte) : Attr := ⟨a.1, [a.2]⟩

/-- What the program has in memory. -/
def signerC (o : Object) (as : List (List Byte × List Byte)) : SignerInfo :=
  ⟨intOctets 3, .ski o.keyId, ⟨sha256Oid, none⟩, some (as.map attrC), ⟨rsaOid, some derNull⟩, o.signature, none⟩

def sdC (o : Object) (as : List (List Byte × List Byte)) : SignedData :=
  ⟨intOctets 3, [⟨sha256Oid, none⟩], o.type, some o.content, some [o.cert], none, [signerC o as]⟩

theorem attrsOf_val (as : List (List Byte × List Byte)) : attrsOf (.list (as.map attrVal)) = some (as.map attrC) :=
  all_map (f := attrOf) (g := attrVal) (k := attrC) fun _ _ => rfl

theorem signerOf_val (o : Object) (as : List (List Byte × List Byte)) : signerOf (signerVal o as) = some (signerC o as) := by
  have h := attrsOf_val as
  simp only [signerVal, signerOf, sidOf, algOf, optional, Option.map_none, Option.map_some, h, bytesOf]
  rfl

theorem sdOf_val (o : Object) (as : List (List Byte × List Byte)) : sdOf (sdVal o as) = some (sdC o as) := by
  have h := signerOf_val o as
  simp only [sdVal, sdOf, all, algOf, optional, certsOf, Option.map_some, h, bytesOf, sdC]

theorem cmsLen {n : Nat} {l : List Byte} (h : DLen n l) : Cms.IsLen n l := by
  rcases h with ⟨b, h1, h2, h3⟩ | ⟨k, b0, bs, h1, h2, h3, -, h4, -⟩
  · exact .inl ⟨b, h1, h2, h3⟩
  · exact .inr ⟨k, b0 :: bs, h1, h2, by simp, h3, h4⟩

theorem elem_tlv {t : Byte} {c : List Byte} (ht : t.toNat % 32 ≠ 31) (h : Fits (tlv t c)) : Elem t (tlv t c) := by
  refine ⟨?_, rfl⟩
  have := Cms.Enc.defn [t] (derLen c.length) c (.inl ⟨t, rfl, ht⟩) (cmsLen (derLen_dlen (Fits.tl h)))
  simpa [tlv] using this

theorem anyLen {t : Byte} {c : List Byte} (h : Fits (tlv t c)) : Cms.AnyLen (derLen c.length) := .inl ⟨_, Fits.tl h, cmsLen (derLen_dlen (Fits.tl h))⟩

theorem tlv_append (t : Byte) (c r : List Byte) : tlv t c ++ r = t :: (derLen c.length ++ (c ++ r)) := by simp [tlv]

/-- The attributes are where `find_signedAttrs` looks. -/
theorem sd_signed {o : Object} {as : List (List Byte × List Byte)} (h : (o.signedData as).length < 2 ^ 31) : signedBytes (o.signedData as) = .bytes (toBeSigned as) := by
  have hf : Fits (o.signedData as) := Nat.lt_trans h (by decide)
  have h1 := Fits.tl hf
  have h2 := h1.right
  have h3 := h2.right
  have h4 := h3.right
  have g := Fits.tl h4.right
  have g1 := Fits.tl g
  have g2 := g1.right
  have g3 := g2.right
  have g4 := g3.right
  refine C84_partial (attrs := derLen (encAttrs as).length ++ encAttrs as) ⟨derLen _, derInt 3, derSet (derSeq (derOid sha256Oid)), derSeq (derOid o.type ++ tlv 0xA0 (derOctets o.content)),
    tlv 0xA0 o.cert, derLen _, derLen _, derInt 3, tlv 0x80 o.keyId, derSeq (derOid sha256Oid), derSeq (derOid rsaOid ++ derNull) ++ derOctets o.signature, ?_,
    anyLen hf, elem_tlv (by decide) h1.left, elem_tlv (by decide) h2.left, elem_tlv (by decide) h3.left, elem_tlv (by decide) h4.left, anyLen h4.right, anyLen g,
    elem_tlv (by decide) g1.left, elem_tlv (by decide) g2.left, elem_tlv (by decide) g3.left, (elem_tlv (by decide) g4.left).1, h⟩
    ⟨_, _, rfl, cmsLen (derLen_dlen (Fits.tl g4.left))⟩
  simp [Object.signedData, Object.signer, derSeq, tlv, derSet]

/-- The decoder's result for a correct file. -/
theorem file_decoded {nuls : Nuls} {o : Object} {as : List (List Byte × List Byte)} (h : Fits (o.file as)) (hc : DEls .one o.cert) (hv : ∀ a ∈ as, DEls .one a.2) (rest : List Byte) :
    signedObjectDecode nuls (o.file as ++ rest) = .ok (o.signedData as, sdC o as) := by
  have h1 := (C172_der _ root_ci (nuls contentInfoTy (o.file as ++ rest)) _ _ rest (ci_der h hc hv) h).1.2 rfl
  have hs : Fits (o.signedData as) := Fits.tl (Fits.tl h).right
  have h2 := (C172_der _ root_sd (nuls signedDataTy (o.signedData as)) _ _ [] (sd_der hs hc hv) hs).1.2 (by rfl)
  rw [List.append_nil] at h2
  unfold signedObjectDecode contentInfoDecode
  rw [h1]
  have e : Cms.oid2arcs signedDataOid = some [1, 2, 840, 113549, 1, 7, 2] := by decide
  simp only [got, ciVal, contentInfoOf, e, if_true]
  unfold signedDataDecode
  rw [h2]
  simp only [got, sdOf_val]

theorem oid_decoded (nuls : Nuls) {b : List Byte} (h : Fits (derOid b)) (hb : b ≠ []) : decodeOid nuls (derOid b) = .ok b := by
  have h1 := (C172_der _ root_oid (nuls objectIDENTIFIERTy (derOid b)) _ _ [] (der_oid h) h).1.2 (by
    have : ¬ b.length < 1 := by have := List.length_pos_of_ne_nil hb; omega
    simp [objectIDENTIFIERCon, check, this])
  rw [List.append_nil] at h1
  unfold decodeOid
  rw [h1]
  rfl

theorem digest_decoded (nuls : Nuls) {b : List Byte} (h : Fits (derOctets b)) : decodeDigest nuls (derOctets b) = .ok b := by
  have h1 := (C172_der _ root_md (nuls messageDigestTy (derOctets b)) _ _ [] (der_octets (tag := 16) (t := 4) (all := [16]) (c := b) (by decide) h) h).1.2 (by rfl)
  rw [List.append_nil] at h1
  unfold decodeDigest
  exact congrArg (got bytesOf) h1

/-- The certificate is accepted, and its key signed these octets. -/
def Approved {C : Type} (y : Crypto C) (o : Object) (b : List Byte) : Prop :=
  ∃ c, y.decodeCert o.cert = some c ∧ y.chainOk c = true ∧ y.profileOk c = true ∧ y.extensionsOk c o.keyId = true ∧ y.resourcesOk c = true ∧ y.verify c b o.signature = true

theorem attrs_one {o : Object} {as : List (List Byte × List Byte)} (hp : as.Perm o.attrList) {a : List Byte × List Byte} (ha : a ∈ as) :
    a = (contentTypeOid, derOid o.type) ∨ a = (messageDigestOid, derOctets o.digest) ∨ a = (signingTimeOid, tlv 0x17 o.time) := by
  have := hp.subset ha
  simpa [Object.attrList] using this

theorem attr_fits {as : List (List Byte × List Byte)} {a : List Byte × List Byte} (h : Fits (encAttrs as)) (ha : a ∈ as) : Fits a.2 := by
  have h1 : Fits (encAttr a.1 a.2) := Fits.mem (f := fun a : List Byte × List Byte => encAttr a.1 a.2) h ha
  exact Fits.tl (Fits.tl h1).right

theorem Fits.attrs {o : Object} {as : List (List Byte × List Byte)} (h : Fits (o.file as)) : Fits (encAttrs as) := by
  have h1 : Fits (o.signedData as) := Fits.tl (Fits.tl h).right
  have h2 : Fits (o.signer as) := Fits.tl (Fits.tl h1).right.right.right.right
  exact Fits.tl (Fits.tl h2).right.right.right.left

theorem attrs_good {o : Object} {as : List (List Byte × List Byte)} (h : Fits (o.file as)) (hp : as.Perm o.attrList) : ∀ a ∈ as, DEls .one a.2 := by
  intro a ha
  have hf := attr_fits (Fits.attrs h) ha
  rcases attrs_one hp ha with rfl | rfl | rfl
  · exact els_prim (tag := 24) (by decide) hf
  · exact els_prim (tag := 16) (by decide) hf
  · exact els_prim (tag := 92) (by decide) hf

theorem names_ct : Names contentTypeOid oidContentType := (names_iff _ _).1 (by decide)
theorem names_md : Names messageDigestOid oidMessageDigest := (names_iff _ _).1 (by decide)
theorem names_st : Names signingTimeOid oidSigningTime := (names_iff _ _).1 (by decide)

theorem attrC_is {arcs : List Nat} {p : List Byte → Prop} {a : List Byte × List Byte} : AttrIs arcs p (attrC a) ↔ Names a.1 arcs ∧ p a.2 := by
  constructor
  · rintro ⟨h1, v, h2, h3⟩
    cases h2
    exact ⟨h1, h3⟩
  · rintro ⟨h1, h2⟩
    exact ⟨h1, _, rfl, h2⟩

theorem names_one {b : List Byte} {arcs arcs' : List Nat} (h : Names b arcs) (h' : Names b arcs') : arcs = arcs' :=
  Option.some.inj (((names_iff _ _).2 h).symm.trans ((names_iff _ _).2 h'))

theorem sd_short {o : Object} {as : List (List Byte × List Byte)} (hl : (o.file as).length < 2 ^ 30) : (o.signedData as).length < 2 ^ 31 := by
  have h1 := tlv_length 0x30 (derOid signedDataOid ++ tlv 0xA0 (o.signedData as))
  have h2 := tlv_length 0xA0 (o.signedData as)
  rw [List.length_append] at h1
  have h3 : (o.file as).length = (tlv 0x30 (derOid signedDataOid ++ tlv 0xA0 (o.signedData as))).length := rfl
  omega

theorem validate_enc {C : Type} (y : Crypto C) (nuls : Nuls) (oid : List Nat) (o : Object) (as : List (List Byte × List Byte)) (hp : as.Perm o.attrList)
    (ho : IsOid o.type oid) (hs : ∀ a ∈ oid, a < 2 ^ 32 - 80) (hl : (o.file as).length < 2 ^ 30) :
    Cms.signedObjectValidate (y.env nuls) oid (o.signedData as) (sdC o as) = .ok ↔ o.digest = y.sha256 o.content ∧ Approved y o (toBeSigned as) := by
  have hf : Fits (o.file as) := Nat.lt_trans hl (by decide)
  have hsig := sd_signed (sd_short hl)
  have hn := C85_partial ho hs
  have hne : o.type ≠ [] := by
    intro e
    rw [e] at hn
    have e0 : Cms.oid2arcs [] = none := by decide
    rw [e0] at hn
    cases hn
  have hmem : ∀ a ∈ o.attrList, Fits a.2 := fun a ha => attr_fits (Fits.attrs hf) (hp.symm.subset ha)
  have hfo : Fits (derOid o.type) := hmem (contentTypeOid, derOid o.type) (by simp [Object.attrList])
  have hfd : Fits (derOctets o.digest) := hmem (messageDigestOid, derOctets o.digest) (by simp [Object.attrList])
  have hdo : (y.env nuls).decodeOid (derOid o.type) = some o.type := by
    show (decodeOid nuls (derOid o.type)).toOption = _
    rw [oid_decoded nuls hfo hne]; rfl
  have hdd : (y.env nuls).decodeOctets (derOctets o.digest) = some o.digest := by
    show (decodeDigest nuls (derOctets o.digest)).toOption = _
    rw [digest_decoded nuls hfd]; rfl
  rw [C86_accepts]
  constructor
  · rintro ⟨si, cert, sid, content, c, b, hpr, v1, v2, v3, v4, v5, v6, v7⟩
    have e1 : si = signerC o as := by have := hpr.signer; simp only [sdC, List.cons.injEq, and_true] at this; exact this.symm
    subst e1
    have e2 : cert = o.cert := by have := hpr.certificate; simp only [sdC, Option.some.injEq, List.cons.injEq, and_true] at this; exact this.symm
    subst e2
    have e3 : sid = o.keyId := by have := hpr.signerId; simp only [signerC, Sid.ski.injEq] at this; exact this.symm
    subst e3
    have e4 : content = o.content := by have := hpr.hasContent; simp only [sdC, Option.some.injEq] at this; exact this.symm
    subst e4
    rw [hsig] at v6
    cases v6
    refine ⟨?_, c, v1, v2, v3, v4, v5, v7⟩
    obtain ⟨l, ct, md, st, h1, h2, h3, h4, h5⟩ := hpr.attrs
    simp only [signerC, Option.some.injEq] at h1
    subst h1
    have hm : md ∈ as.map attrC := h2.symm.subset (by simp)
    obtain ⟨a, ha, rfl⟩ := List.mem_map.1 hm
    obtain ⟨k1, k2⟩ := attrC_is.1 h4
    rcases attrs_one hp ha with rfl | rfl | rfl
    · exact absurd (names_one k1 names_ct) (by decide)
    · simp only at k2
      rw [hdd] at k2
      exact Option.some.inj k2
    · exact absurd (names_one k1 names_st) (by decide)
  · rintro ⟨hd, c, v1, v2, v3, v4, v5, v7⟩
    refine ⟨signerC o as, o.cert, o.keyId, o.content, c, toBeSigned as, ?_, v1, v2, v3, v4, v5, hsig, v7⟩
    have hi : be (intOctets 3) = 3 := be_intOctets 3
    exact {
      version := hi
      signer := rfl
      signerVersion := hi
      digest := ⟨_, rfl, rfl, .inl rfl⟩
      signerDigest := ⟨rfl, .inl rfl⟩
      signature := ⟨.inl rfl, .inr (show some derNull = some [5, 0] by decide +kernel)⟩
      certificate := rfl
      signerId := rfl
      noCrls := .inl rfl
      noUnsigned := .inl rfl
      type := (names_iff _ _).1 hn
      hasContent := rfl
      attrs := ⟨_, attrC (contentTypeOid, derOid o.type), attrC (messageDigestOid, derOctets o.digest), attrC (signingTimeOid, tlv 0x17 o.time), rfl, hp.map attrC,
        attrC_is.2 ⟨names_ct, hdo⟩, attrC_is.2 ⟨names_md, by rw [hdd, hd]; rfl⟩, attrC_is.2 ⟨names_st, trivial⟩⟩ }

/-- **C185.** A signed object that is written as RFC 5652 and RFC 6488 prescribe, with its attributes in any order, and whatever follows in the file: it is accepted if
and only if the digest is the content's, the certificate is accepted, and its key signed the attributes; then the program goes on with the content that the
issuer wrote. -/
theorem C185_correct {C : Type} (y : Crypto C) (nuls : Nuls) (oid : List Nat) (o : Object) (as : List (List Byte × List Byte)) (rest : List Byte) (hp : as.Perm o.attrList)
    (ho : IsOid o.type oid) (hs : ∀ a ∈ oid, a < 2 ^ 32 - 80) (hc : DEls .one o.cert) (hl : (o.file as).length < 2 ^ 30) :
    (o.digest = y.sha256 o.content ∧ Approved y o (toBeSigned as) → signedObject y nuls oid (o.file as ++ rest) = .ok o.content) ∧
    (¬ (o.digest = y.sha256 o.content ∧ Approved y o (toBeSigned as)) → signedObject y nuls oid (o.file as ++ rest) = .error) := by
  have hf : Fits (o.file as) := Nat.lt_trans hl (by decide)
  have hv := attrs_good hf hp
  have hsig := sd_signed (sd_short hl)
  have key := validate_enc y nuls oid o as hp ho hs hl
  unfold signedObject
  rw [file_decoded hf hc hv rest]
  simp only
  refine ⟨fun h => ?_, fun h => ?_⟩
  · rw [key.2 h]
    rfl
  · cases hr : Cms.signedObjectValidate (y.env nuls) oid (o.signedData as) (sdC o as) with
    | ok => exact absurd (key.1 hr) h
    | err => rfl
    | crash =>
      obtain ⟨si, -, hcr⟩ := validate_crash hr
      rw [hsig] at hcr
      cases hcr

namespace Ex

/-- An object with this signature. -/
def obj (sig : Byte) : Object := ⟨roaType, [1, 2, 3], derSeq (derOctets [0xCE]), [0xAA, 0xBB], [6], [], [sig]⟩

/-- Its attributes, in another order. -/
def objAttrs (sig : Byte) : List (List Byte × List Byte) := [(signingTimeOid, tlv 0x17 []), (contentTypeOid, derOid (obj sig).type), (messageDigestOid, derOctets [6])]

theorem objAttrs_perm (sig : Byte) : (objAttrs sig).Perm (obj sig).attrList := by
  unfold objAttrs Object.attrList
  exact (List.Perm.swap _ _ _).trans (.cons _ (.swap _ _ _))

theorem obj_cert (sig : Byte) : DEls .one (obj sig).cert :=
  els_constr (tag := 64) (by decide) (by unfold Obj.Fits; decide +kernel) (els_last (els_prim (tag := 16) (t := 4) (by decide) (by unfold Obj.Fits; decide +kernel)))

theorem obj_length (sig : Byte) : ((obj sig).file (objAttrs sig)).length < 2 ^ 30 := by
  have : ((obj 0).file (objAttrs 0)).length < 2 ^ 30 := by decide +kernel
  simpa [obj, objAttrs, Object.file, Object.signedData, Object.signer, tlv, derSeq, derOctets, derSet] using this

end Ex

/-- Accepted, and then the content is what was written; and with another signature it is refused. -/
example : signedObject Ex.crypto Ex.nuls Ex.roaOid ((Ex.obj 0xA4).file (Ex.objAttrs 0xA4) ++ [9]) = .ok [1, 2, 3] :=
  (C185_correct Ex.crypto Ex.nuls Ex.roaOid (Ex.obj 0xA4) (Ex.objAttrs 0xA4) [9] (Ex.objAttrs_perm _) Cms.Ex.roa_is (by decide) (Ex.obj_cert _) (Ex.obj_length _)).1
    ⟨by decide, 0xCE, by decide +kernel, by decide, by decide, by decide, by decide, by decide +kernel⟩

example : signedObject Ex.crypto Ex.nuls Ex.roaOid ((Ex.obj 0xA5).file (Ex.objAttrs 0xA5) ++ [9]) = .error :=
  (C185_correct Ex.crypto Ex.nuls Ex.roaOid (Ex.obj 0xA5) (Ex.objAttrs 0xA5) [9] (Ex.objAttrs_perm _) Cms.Ex.roa_is (by decide) (Ex.obj_cert _) (Ex.obj_length _)).2
    (fun ⟨_, c, h1, _, _, _, _, h2⟩ => by
      have h3 : ([0xA5] == [(toBeSigned (Ex.objAttrs 0xA5)).foldl (· + ·) 1]) = true := h2
      exact absurd h3 (by decide +kernel))

end Verif.Sd
