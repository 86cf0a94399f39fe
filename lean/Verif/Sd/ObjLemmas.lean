import Verif.Sd.Spec
import Verif.Sd.ShapeLemmas
import Verif.Cms.ObjectProps
/-
From a file to the octets that are signed.
-/
namespace Verif.Sd
open Verif.Res (Byte)
open Verif.Asn
open Verif.Obj (Got got all)
open Verif.Cms (SignedData SignerInfo AlgId Attr Sid Env signedBytes findSignedAttrs signedObjectValidate)

theorem got_inv {α : Type} {f : Val → Option α} {nul : Nul} {ty : Ty} {con : Con} {s : List Byte} {a : α} (h : got f (asn1Decode nul ty con s) = .ok a) :
    ∃ v n, dec ty .none s = .ok v n ∧ f v = some a := by
  unfold asn1Decode berDecode at h
  cases hd : dec ty .none s with
  | more => rw [hd] at h; cases h
  | fail => rw [hd] at h; cases h
  | hang => rw [hd] at h; cases h
  | crash => rw [hd] at h; cases h
  | ok v n =>
    rw [hd] at h
    simp only at h
    refine ⟨v, n, rfl, ?_⟩
    cases hc : check nul con v with
    | fail => rw [hc] at h; cases h
    | abort => rw [hc] at h; cases h
    | crash => rw [hc] at h; cases h
    | pass =>
      rw [hc] at h
      simp only [got] at h
      cases hf : f v with
      | none => rw [hf] at h; cases h
      | some b => rw [hf] at h; cases h; rfl

/-- One of the two types of signed data. -/
inductive Encap : Ty → Prop where
  | cms : Encap encapsulatedContentInfoTy
  | pkcs7 : Encap encapsulatedContentInfoPKCS7Ty

theorem Encap.ok {t : Ty} (h : Encap t) : t.Ok := by cases h <;> exact Ty.okB_ok _ (by decide)
theorem Encap.ends {t : Ty} (h : Encap t) : ends t = true := by cases h <;> decide

/-- The decoded structure, except for the content. -/
theorem signedDataDecode_inv {nuls : Nuls} {c : List Byte} {sd : SignedData} (h : signedDataDecode nuls c = .ok sd) :
    ∃ encap v n sd0, Encap encap ∧ dec (sdTy encap) .none c = .ok v n ∧ sdOf v = some sd0 ∧ sd.signerInfos = sd0.signerInfos := by
  unfold signedDataDecode at h
  cases hg : got sdOf (asn1Decode (nuls signedDataTy c) signedDataTy signedDataCon c) with
  | hang => rw [hg] at h; cases h
  | bad => rw [hg] at h; cases h
  | ok sd' =>
    rw [hg] at h
    cases h
    obtain ⟨v, n, h1, h2⟩ := got_inv hg
    exact ⟨_, v, n, _, .cms, h1, h2, rfl⟩
  | error =>
    rw [hg] at h
    simp only at h
    unfold decodePkcs7 at h
    cases hg : got sdOf (asn1Decode (nuls signedDataPKCS7Ty c) signedDataPKCS7Ty signedDataPKCS7Con c) with
    | hang => rw [hg] at h; cases h
    | bad => rw [hg] at h; cases h
    | error => rw [hg] at h; cases h
    | ok sd' =>
      rw [hg] at h
      simp only at h
      obtain ⟨v, n, h1, h2⟩ := got_inv hg
      cases he : sd'.eContent with
      | none => rw [he] at h; cases h
      | some x =>
        rw [he] at h
        simp only at h
        cases hx : got bytesOf (asn1Decode (nuls contentTypePKCS7Ty x) contentTypePKCS7Ty contentTypePKCS7Con x) with
        | hang => rw [hx] at h; cases h
        | bad => rw [hx] at h; cases h
        | error => rw [hx] at h; cases h
        | ok z =>
          rw [hx] at h
          cases h
          exact ⟨_, v, n, _, .pkcs7, h1, h2, rfl⟩

theorem all_length {α : Type} {f : Val → Option α} : ∀ {l : List Val} {as : List α}, all f l = some as → as.length = l.length := by
  intro l
  induction l with
  | nil => intro as h; cases h; rfl
  | cons v l ih =>
    intro as h
    unfold all at h
    cases h1 : f v with
    | none => rw [h1] at h; cases h
    | some a =>
      cases h2 : all f l with
      | none => rw [h1, h2] at h; cases h
      | some bs => rw [h1, h2] at h; cases h; simp [ih h2]

theorem all_cons {α : Type} {f : Val → Option α} {v : Val} {l : List Val} {as : List α} (h : all f (v :: l) = some as) :
    ∃ a bs, as = a :: bs ∧ f v = some a ∧ all f l = some bs := by
  unfold all at h
  cases h1 : f v with
  | none => rw [h1] at h; cases h
  | some a =>
    cases h2 : all f l with
    | none => rw [h1, h2] at h; cases h
    | some bs => rw [h1, h2] at h; cases h; exact ⟨a, bs, rfl, rfl, rfl⟩

theorem signerOf_attrs {iv sid da attrs : Val} {ws : List (Option Val)} {si : SignerInfo}
    (h : signerOf (.seq (some iv :: some sid :: some da :: some attrs :: ws)) = some si) : ∃ as, si.signedAttrs = some as ∧ attrsOf attrs = some as := by
  unfold signerOf at h
  split at h
  · rename_i heq
    simp only [Val.seq.injEq, List.cons.injEq, Option.some.injEq] at heq
    obtain ⟨rfl, rfl, rfl, rfl, -⟩ := heq
    split at h
    · rename_i h3 _ _
      cases h
      simp only [optional] at h3
      cases ha : attrsOf attrs with
      | none => rw [ha] at h3; cases h3
      | some as => rw [ha] at h3; cases h3; exact ⟨as, rfl, rfl⟩
    · cases h
  · cases h

theorem sdOf_infos {a b c d : Option Val} {e : Option Val} {infos : List Val} {sd : SignedData} (h : sdOf (.seq [a, b, c, d, e, some (.list infos)]) = some sd) :
    all signerOf infos = some sd.signerInfos := by
  unfold sdOf at h
  split at h
  · rename_i heq
    simp only [Val.seq.injEq, List.cons.injEq, Option.some.injEq, Val.list.injEq] at heq
    obtain ⟨-, -, -, -, -, rfl, -⟩ := heq
    split at h
    · rename_i h5
      cases h
      exact h5
    · cases h
  · cases h

/-- The tag makes no difference. -/
theorem attrs_tag {a : List Byte} {v : Val} {n : Nat} (h : dec signedAttributesTy .implicit (0xA0 :: a) = .ok v n) : dec signedAttributesTy .none (0x31 :: a) = .ok v n := by
  have hsa : signedAttributesTy = .setOf [68] (some 64) cmsAttributeTy := rfl
  rw [hsa] at h ⊢
  unfold dec at h ⊢
  obtain ⟨tl, n0, h1, h2⟩ := andThen_ok h
  have e1 : checkTags [68] .implicit (some true) (0xA0 :: a) = tagsLoop (some true) [none] (0xA0 :: a) none 0 0 false 0 := rfl
  have e2 : checkTags [68] .none (some true) (0x31 :: a) = tagsLoop (some true) [some 68] (0x31 :: a) none 0 0 false 0 := rfl
  have f1 : fetchTag ((0xA0 : Byte) :: a) = .ok 2 1 := by rw [fetchTag_cons, if_pos (by decide)]; rfl
  have f2 : fetchTag ((0x31 : Byte) :: a) = .ok 68 1 := by rw [fetchTag_cons, if_pos (by decide)]; rfl
  have c1 : Cms.isConstructed ((0xA0 : Byte) :: a) = true := by simp [Cms.isConstructed]
  have c2 : Cms.isConstructed ((0x31 : Byte) :: a) = true := by simp [Cms.isConstructed]
  have key : checkTags [68] .none (some true) (0x31 :: a) = .ok tl n0 := by
    rw [e1] at h1
    rw [e2]
    unfold tagsLoop at h1 ⊢
    rw [f1] at h1
    rw [f2]
    simp only [c1, c2] at h1 ⊢
    simpa [tagsLoop] using h1
  rw [andThen_eq key]
  have hn0 : 1 ≤ n0 := by have := (checkTags_tag key).1; omega
  obtain ⟨m, rfl⟩ : ∃ m, n0 = m + 1 := ⟨n0 - 1, by omega⟩
  simp only [List.drop_succ_cons, List.length_cons] at h2 ⊢
  exact h2

/-- **From the file to the signed octets.** -/
theorem signed_attrs {nuls : Nuls} {c b : List Byte} {sd : SignedData} {si : SignerInfo} {sis : List SignerInfo} (hlen : c.length < 2 ^ 31)
    (hd : signedDataDecode nuls c = .ok sd) (hs : signedBytes c = .bytes b) (hsi : sd.signerInfos = si :: sis) (hb : b ≠ [0x31]) :
    ∃ pre a post v as, c = pre ++ 0xA0 :: (a ++ post) ∧ b = 0x31 :: a ∧ berDecode signedAttributesTy b = .ok v b.length ∧ attrsOf v = some as ∧
      si.signedAttrs = some as ∧ Ber signedAttributesTy (.implicit 2) v (0xA0 :: a) := by
  obtain ⟨encap, v, n, sd0, he, h1, h2, h3⟩ := signedDataDecode_inv hd
  unfold signedBytes at hs
  cases hf : findSignedAttrs c with
  | none => rw [hf] at hs; cases hs
  | some r =>
    obtain ⟨s, size⟩ := r
    rw [hf] at hs
    simp only at hs
    obtain ⟨version, algs, enc, certs, infos, rfl, hw⟩ := walk he.ok he.ends hlen h1 hf
    have hinf := sdOf_infos h2
    rw [← h3, hsi] at hinf
    cases infos with
    | nil => cases hinf
    | cons x xs =>
      obtain ⟨a0, bs, e0, hx, -⟩ := all_cons hinf
      simp only [List.cons.injEq] at e0
      obtain ⟨rfl, rfl⟩ := e0
      obtain ⟨g1, iv, sid, da, attrs, ws, pre, a, post, rfl, g2, g3, g4, g5⟩ := hw x xs rfl
      rw [if_neg (by simp only at g1; omega)] at hs
      simp only [Cms.Signed.bytes.injEq] at hs
      subst hs
      obtain ⟨as, has1, has2⟩ := signerOf_attrs hx
      rcases g5 with ⟨l, w, rfl, -, hb'⟩ | ⟨w, rfl, hb'⟩
      · rw [hb'] at hb ⊢
        refine ⟨pre, _, post, attrs, as, g2, rfl, ?_, has2, has1, g3⟩
        unfold berDecode
        rw [attrs_tag g4]
        simp
      · exact absurd hb' hb

/-- The walk does not leave the buffer. -/
theorem signed_inside {nuls : Nuls} {c : List Byte} {sd : SignedData} {si : SignerInfo} {sis : List SignerInfo} (hlen : c.length < 2 ^ 31)
    (hd : signedDataDecode nuls c = .ok sd) (hsi : sd.signerInfos = si :: sis) : signedBytes c ≠ .crash := by
  intro hs
  obtain ⟨encap, v, n, sd0, he, h1, h2, h3⟩ := signedDataDecode_inv hd
  unfold signedBytes at hs
  cases hf : findSignedAttrs c with
  | none => rw [hf] at hs; cases hs
  | some r =>
    obtain ⟨s, size⟩ := r
    rw [hf] at hs
    simp only at hs
    obtain ⟨version, algs, enc, certs, infos, rfl, hw⟩ := walk he.ok he.ends hlen h1 hf
    have hinf := sdOf_infos h2
    rw [← h3, hsi] at hinf
    cases infos with
    | nil => cases hinf
    | cons x xs =>
      obtain ⟨g1, -⟩ := hw x xs rfl
      rw [if_neg (by simp only at g1; omega)] at hs
      cases hs

/-- The signed data is part of the file. -/
theorem contentInfo_length {nuls : Nuls} {file c : List Byte} (h : contentInfoDecode nuls file = .ok c) : c.length ≤ file.length := by
  unfold contentInfoDecode at h
  cases hg : got contentInfoOf (asn1Decode (nuls contentInfoTy file) contentInfoTy contentInfoCon file) with
  | hang => rw [hg] at h; cases h
  | bad => rw [hg] at h; cases h
  | error => rw [hg] at h; cases h
  | ok p =>
    obtain ⟨t, c'⟩ := p
    rw [hg] at h
    simp only at h
    split at h
    · cases h
      obtain ⟨v, n, h1, h2⟩ := got_inv hg
      obtain ⟨-, hn, hb⟩ := dec_sound (Ty.okB_ok _ (by decide)) h1 .own rfl (fun t ht => by cases ht)
      have hci : contentInfoTy = .seq [64] (.cons ⟨some 24, .none, false, false, [24]⟩ contentTypeTy
        (.cons ⟨some 2, .explicit, false, false, [2]⟩ anyTy .nil)) := rfl
      rw [hci] at hb
      obtain ⟨x, vs, hx, rfl, hm⟩ := hb
      have hlx : x.length ≤ n := by
        have hl : (file.take n).length = n := by rw [List.length_take]; omega
        simp only [Tagging.tags, Nest] at hx
        rw [← hl]
        generalize file.take n = y at hx
        cases hx with
        | defn _ _ => simp only [List.length_append]; omega
        | indef _ _ => simp only [List.length_append]; omega
      rcases hm with ⟨hm, -⟩ | ⟨x1, ws, d, e, rfl, rfl, -, hm⟩
      · cases hm
      · rcases hm with ⟨hm, -⟩ | ⟨x2, ws, d', e', rfl, rfl, hm, hm2⟩
        · cases hm
        · obtain ⟨cc, constr, htlv, rfl, -, -⟩ := hm
          obtain ⟨rfl, rfl⟩ := hm2
          unfold contentInfoOf at h2
          split at h2
          · rename_i heq
            simp only [Val.seq.injEq, List.cons.injEq, Option.some.injEq, Val.bytes.injEq] at heq
            cases h2
            obtain ⟨-, rfl, -⟩ := heq
            have : cc.length ≤ d'.length := by
              cases htlv with
              | defn _ _ => simp only [List.length_append]; omega
              | indef _ _ => simp only [List.length_append]; omega
            simp only [List.length_append] at hlx
            omega
          · cases h2
    · cases h

theorem signedObjectDecode_inv {nuls : Nuls} {file c : List Byte} {sd : SignedData} (h : signedObjectDecode nuls file = .ok (c, sd)) :
    contentInfoDecode nuls file = .ok c ∧ signedDataDecode nuls c = .ok sd := by
  unfold signedObjectDecode at h
  cases h1 : contentInfoDecode nuls file with
  | hang => rw [h1] at h; cases h
  | bad => rw [h1] at h; cases h
  | error => rw [h1] at h; cases h
  | ok c' =>
    rw [h1] at h
    simp only at h
    cases h2 : signedDataDecode nuls c' with
    | hang => rw [h2] at h; cases h
    | bad => rw [h2] at h; cases h
    | error => rw [h2] at h; cases h
    | ok sd' =>
      rw [h2] at h
      cases h
      exact ⟨rfl, h2⟩

end Verif.Sd
