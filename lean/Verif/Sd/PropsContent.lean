import Verif.Sd.Props
/-
C182: where the content of an accepted object is in the file.
-/
namespace Verif.Sd
open Verif.Res (Byte)
open Verif.Asn
open Verif.Obj (Got got all)
open Verif.Cms (SignedData SignerInfo AlgId Names names_iff)

theorem got_ok {α : Type} {f : Val → Option α} {r : Decoded} {a : α} (h : got f r = .ok a) : ∃ v, r = .ok v ∧ f v = some a := by
  cases r with
  | ok v =>
    simp only [got] at h
    cases hf : f v with
    | none => rw [hf] at h; cases h
    | some b => rw [hf] at h; cases h; exact ⟨v, rfl, hf⟩
  | _ => cases h

theorem all_one {α : Type} {f : Val → Option α} {l : List Val} {a : α} (h : all f l = some [a]) : ∃ v, l = [v] ∧ f v = some a := by
  cases l with
  | nil => cases h
  | cons v l =>
    obtain ⟨b, bs, e, h1, h2⟩ := all_cons h
    simp only [List.cons.injEq] at e
    obtain ⟨rfl, rfl⟩ := e
    have := List.length_eq_zero_iff.1 (all_length h2).symm
    subst this
    exact ⟨v, rfl, h1⟩

theorem algOf_inv {v : Val} {a : AlgId} (h : algOf v = some a) : v = algV a.oid a.params := by
  unfold algOf at h
  split at h
  · rename_i o p
    cases p with
    | none => cases h; rfl
    | some w => cases w <;> cases h; rfl
  · cases h

theorem bytesOf_inv {v : Val} {b : List Byte} (h : bytesOf v = some b) : v = .bytes b := by cases v <;> cases h; rfl

theorem count_none {o : Option Val} {n : Option Nat} (h : optional countOf o = some n) (hn : n = none ∨ n = some 0) : NoneV o := by
  cases o with
  | none => exact .inl rfl
  | some v =>
    right
    cases v with
    | list l =>
      simp only [optional, countOf, Option.map_some, Option.some.injEq] at h
      subst h
      rcases hn with h | h
      · cases h
      · rw [List.length_eq_zero_iff.1 (Option.some.inj h)]
    | _ => cases h

theorem sha_inv {t : Bool} {v : Val} {a : AlgId} (h : algOf v = some a) (hs : Cms.IsSha256 t a) : ShaV t v := by
  rw [algOf_inv h, hs.1]
  exact ⟨_, rfl, hs.2⟩

theorem rsa_inv {v : Val} {a : AlgId} (h : algOf v = some a) (hs : Cms.IsRsa a) : RsaV v := by
  rw [algOf_inv h]
  exact ⟨_, _, rfl, hs.1, hs.2⟩

/-- The signer, as it is encoded. -/
theorem signer_inv {v : Val} {si : SignerInfo} {t : Bool} {sid : List Byte} {as : List Cms.Attr} (h : signerOf v = some si) (h2 : Cms.IsSha256 t si.digestAlg)
    (h3 : Cms.IsRsa si.sigAlg) (h4 : si.sid = .ski sid) (h5 : si.unsignedAttrs = none ∨ si.unsignedAttrs = some 0) (h6 : si.signedAttrs = some as) :
    ∃ da attrs ga ua, v = .seq [some (.bytes si.version), some (.alt 1 (.bytes sid)), some da, some attrs, some ga, some (.bytes si.signature), ua] ∧
      ShaV t da ∧ RsaV ga ∧ NoneV ua ∧ attrsOf attrs = some as := by
  unfold signerOf at h
  split at h
  · rename_i ver sv da sa ga sig ua
    split at h
    · rename_i sid' da' sa' ga' ua' q1 q2 q3 q4 q5
      cases h
      simp only at *
      subst h4 h6
      have e : sv = .alt 1 (.bytes sid) := by
        unfold sidOf at q1
        split at q1
        · cases q1
        · cases q1; rfl
        · cases q1
      subst e
      cases sa with
      | none => cases q3
      | some w =>
        cases hw : attrsOf w with
        | none => simp [optional, hw] at q3
        | some z =>
          simp only [optional, hw, Option.map_some, Option.some.injEq] at q3
          subst q3
          exact ⟨da, w, ga, ua, rfl, sha_inv q2 h2, rsa_inv q4 h3, count_none q5 h5, hw⟩
    · cases h
  · cases h

/-- The signed data, as it is encoded. -/
theorem sd_inv {C : Type} {env : Cms.Env C} {oid : List Nat} {v : Val} {sd sd' : SignedData} {si : SignerInfo} {cert sid content z : List Byte} (h : sdOf v = some sd)
    (hz : sd.eContent = some z) (hs : sd' = { sd with eContent := sd'.eContent }) (hp : Cms.Profile env oid sd' si cert sid content) :
    ∃ as attrs, Complies env.nullParamsOk v sd'.eContentType z cert sid si.signature attrs ∧ si.signedAttrs = some as ∧ attrsOf (.list attrs) = some as := by
  have g1 := hp.version
  have g2 := hp.signer
  obtain ⟨a, g3, g4⟩ := hp.digest
  have g5 := hp.certificate
  have g6 := hp.noCrls
  rw [hs] at g1 g2 g3 g5 g6 ⊢
  simp only at g1 g2 g3 g5 g6 ⊢
  obtain ⟨as, -, -, -, g7, -⟩ := hp.attrs
  unfold sdOf at h
  split at h
  · rename_i ver das t c certs crls infos
    split at h
    · rename_i das' c' certs' crls' infos' q1 q2 q3 q4 q5
      cases h
      simp only at *
      subst hz g2 g3 g5
      obtain ⟨av, rfl, r1⟩ := all_one q1
      obtain ⟨sv, rfl, r2⟩ := all_one q5
      obtain ⟨da, attrs, ga, ua, rfl, k1, k2, k3, k4⟩ := signer_inv r2 hp.signerDigest hp.signature hp.signerId hp.noUnsigned g7
      have hl : ∃ l, attrs = .list l := by cases attrs <;> first | exact ⟨_, rfl⟩ | cases k4
      obtain ⟨l, rfl⟩ := hl
      cases c with
      | none => cases q2
      | some cv =>
        cases hb : bytesOf cv with
        | none => simp [optional, hb] at q2
        | some cb =>
          simp only [optional, hb, Option.map_some, Option.some.injEq] at q2
          subst q2
          rw [bytesOf_inv hb]
          cases certs with
          | none => cases q3
          | some cl =>
            cases hcl : certsOf cl with
            | none => simp [optional, hcl] at q3
            | some cs =>
              simp only [optional, hcl, Option.map_some, Option.some.injEq] at q3
              subst q3
              have : cl = .list [.bytes cert] := by
                cases cl with
                | list l' =>
                  obtain ⟨w, rfl, hw⟩ := all_one (f := bytesOf) hcl
                  rw [bytesOf_inv hw]
                | _ => cases hcl
              subst this
              exact ⟨as, l, ⟨_, _, _, _, _, _, _, rfl, g1, hp.signerVersion, sha_inv r1 g4, k1, k2, count_none q4 g6, k3⟩, g7, k4⟩
    · cases h
  · cases h

/-- **The file is a signed object of this type**, with this content: it begins with a ContentInfo of type id-signedData, whose content begins with a SignedData as RFC 6488 prescribes, of
this type, with signed attributes that name the type and this digest, and with an OCTET STRING that holds the content; or, in the older form (PKCS#7), with an element as its content that begins
with such an OCTET STRING. -/
def Carries (tolerant : Bool) (file type digest x : List Byte) : Prop :=
  ∃ t c f r, file = f ++ r ∧ Ber contentInfoTy .own (.seq [some (.bytes t), some (.bytes c)]) f ∧ Names t [1, 2, 840, 113549, 1, 7, 2] ∧
    ∃ s rest v cert keyId signature attrs, c = s ++ rest ∧ Attributes attrs type digest ∧
      ((Complies tolerant v type x cert keyId signature attrs ∧ Ber signedDataTy .own v s) ∨
       ∃ a o more, Complies tolerant v type a cert keyId signature attrs ∧ Ber signedDataPKCS7Ty .own v s ∧ a = o ++ more ∧ Ber contentTypePKCS7Ty .own (.bytes x) o)

theorem carries_of {C : Type} {y : Crypto C} {nuls : Nuls} {oid : List Nat} {file c x : List Byte} {sd : SignedData} {si : SignerInfo} {cert sid content : List Byte}
    (hd : signedObjectDecode nuls file = .ok (c, sd)) (hp : Cms.Profile (y.env nuls) oid sd si cert sid content) (hx : sd.eContent = some x) :
    Carries y.nullParamsOk file sd.eContentType (y.sha256 x) x := by
  have hat : ∀ {as attrs}, si.signedAttrs = some as → attrsOf (.list attrs) = some as → Attributes attrs sd.eContentType (y.sha256 x) := by
    intro as attrs h1 h2
    obtain ⟨as', ct, md, st, e, hperm, ⟨n1, q1, m1, k1⟩, ⟨n2, q2, m2, k2⟩, k3⟩ := hp.attrs
    rw [h1] at e
    cases e
    have hcx := hp.hasContent
    rw [hx] at hcx
    cases hcx
    obtain ⟨l, e, hl⟩ := attributes_of h2 hperm ⟨n1, q1, m1, holds_of k1⟩ ⟨n2, q2, m2, holds_of k2⟩ k3
    cases e
    exact hl
  obtain ⟨hc, hsd⟩ := signedObjectDecode_inv hd
  unfold contentInfoDecode at hc
  cases hg : got contentInfoOf (asn1Decode (nuls contentInfoTy file) contentInfoTy contentInfoCon file) with
  | hang => rw [hg] at hc; cases hc
  | bad => rw [hg] at hc; cases hc
  | error => rw [hg] at hc; cases hc
  | ok p =>
    obtain ⟨t, c'⟩ := p
    rw [hg] at hc
    simp only at hc
    by_cases ht : Cms.oid2arcs t = some [1, 2, 840, 113549, 1, 7, 2]
    · rw [if_pos ht] at hc
      cases hc
      obtain ⟨v, h1, h2⟩ := got_ok hg
      obtain ⟨f, r, e1, e2⟩ := C171_ber _ root_ci _ _ _ h1
      have hval : v = .seq [some (.bytes t), some (.bytes c)] := by
        unfold contentInfoOf at h2
        split at h2
        · cases h2; rfl
        · cases h2
      subst hval
      refine ⟨t, c, f, r, e1, e2, (names_iff _ _).1 ht, ?_⟩
      unfold signedDataDecode at hsd
      cases hs : got sdOf (asn1Decode (nuls signedDataTy c) signedDataTy signedDataCon c) with
      | hang => rw [hs] at hsd; cases hsd
      | bad => rw [hs] at hsd; cases hsd
      | ok sd' =>
        rw [hs] at hsd
        cases hsd
        obtain ⟨v, k1, k2⟩ := got_ok hs
        obtain ⟨s, rest, a1, a2⟩ := C171_ber _ root_sd _ _ _ k1
        obtain ⟨as, attrs, b1, b2, b3⟩ := sd_inv k2 hx rfl hp
        exact ⟨s, rest, v, cert, sid, _, attrs, a1, hat b2 b3, .inl ⟨b1, a2⟩⟩
      | error =>
        rw [hs] at hsd
        simp only at hsd
        unfold decodePkcs7 at hsd
        cases hs : got sdOf (asn1Decode (nuls signedDataPKCS7Ty c) signedDataPKCS7Ty signedDataPKCS7Con c) with
        | hang => rw [hs] at hsd; cases hsd
        | bad => rw [hs] at hsd; cases hsd
        | error => rw [hs] at hsd; cases hsd
        | ok sd' =>
          rw [hs] at hsd
          simp only at hsd
          cases he : sd'.eContent with
          | none => rw [he] at hsd; cases hsd
          | some z =>
            rw [he] at hsd
            simp only at hsd
            cases hz : got bytesOf (asn1Decode (nuls contentTypePKCS7Ty z) contentTypePKCS7Ty contentTypePKCS7Con z) with
            | hang => rw [hz] at hsd; cases hsd
            | bad => rw [hz] at hsd; cases hsd
            | error => rw [hz] at hsd; cases hsd
            | ok w =>
              rw [hz] at hsd
              cases hsd
              simp only [Option.some.injEq] at hx
              subst hx
              obtain ⟨v, k1, k2⟩ := got_ok hs
              obtain ⟨s, rest, a1, a2⟩ := C171_ber _ root_p7 _ _ _ k1
              obtain ⟨as, attrs, b1, b2, b3⟩ := sd_inv k2 he rfl hp
              obtain ⟨u, m1, m2⟩ := got_ok hz
              obtain ⟨o, more, c1, c2⟩ := C171_ber _ root_ct7 _ _ _ m1
              rw [bytesOf_inv m2] at c2
              exact ⟨s, rest, v, cert, sid, _, attrs, a1, hat b2 b3, .inr ⟨z, o, more, b1, a2, c1, c2⟩⟩
    · rw [if_neg ht] at hc; cases hc

/-- **C182.** The content that the program goes on with is the one in the file, which is a signed object of the type that is wanted, as RFC 6488 prescribes. -/
theorem C182_content {C : Type} (y : Crypto C) (nuls : Nuls) (oid : List Nat) (file x : List Byte) (h : signedObject y nuls oid file = .ok x) :
    ∃ type, Names type oid ∧ Carries y.nullParamsOk file type (y.sha256 x) x := by
  obtain ⟨c, sd, hd, hv, hx⟩ := accepted_inv h
  obtain ⟨si, cert, sid, content, cc, b, hp, -⟩ := (Cms.C86_accepts _ _ _ _).1 hv
  exact ⟨_, hp.type, carries_of hd hp hx⟩

/-- An accepted object. -/
example : ∃ type, Names type Ex.roaOid ∧ Carries false Ex.good type [6] [1, 2, 3] := C182_content Ex.crypto Ex.nuls Ex.roaOid Ex.good [1, 2, 3] Ex.accepted

namespace Ex

/-- The older form: the content is anything. -/
def old (content sig : List Byte) : List Byte :=
  el 0x30 (el 6 [0x2a, 0x86, 0x48, 0x86, 0xf7, 0x0d, 0x01, 0x07, 0x02] ++ el 0xA0 (el 0x30 (
    el 2 [3] ++ el 0x31 sha ++ el 0x30 (el 6 roaType ++ el 0xA0 content) ++ el 0xA0 (el 0x30 (el 4 [0xCE])) ++
    el 0x31 (el 0x30 (el 2 [3] ++ el 0x80 [0xAA, 0xBB] ++ sha ++ definite (attrs 6) ++ rsa ++ el 4 sig)))))

theorem old_accepted : signedObject crypto nuls roaOid (old (el 4 [1, 2, 3] ++ [5, 0]) [0xA4]) = .ok [1, 2, 3] := by decide +kernel

end Ex

/-- Not all of the eContent is signed: an OCTET STRING, and a NULL after it. The first form refuses this, the older one does not, and there the content is the OCTET STRING's. -/
example : ¬ ∃ sd, got sdOf (asn1Decode .never signedDataTy signedDataCon ((contentInfoDecode Ex.nuls (Ex.old (Ex.el 4 [1, 2, 3] ++ [5, 0]) [0xA4])).toOption.getD [])) = .ok sd := by
  have h : got sdOf (asn1Decode .never signedDataTy signedDataCon ((contentInfoDecode Ex.nuls (Ex.old (Ex.el 4 [1, 2, 3] ++ [5, 0]) [0xA4])).toOption.getD [])) = .error := by
    decide +kernel
  rw [h]
  rintro ⟨_, h⟩
  cases h

end Verif.Sd
