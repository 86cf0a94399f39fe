import Verif.Cms.SignProps
import Verif.Cms.OidProps
import Verif.Cms.Spec
import Verif.Res.TrimProps
/-
C86, C87: which signed objects are accepted.
-/
namespace Verif.Cms
open Verif.Res (Byte be integer2ulong integer2ulong_iff)

theorem names_iff (b : List Byte) (arcs : List Nat) : oid2arcs b = some arcs ↔ Names b arcs := C85_modulo b arcs

theorem int3 (b : List Byte) : integer2ulong b = some 3 ↔ be b = 3 := by
  rw [integer2ulong_iff]
  constructor
  · rintro ⟨h, -⟩; exact h.symm
  · intro h; exact ⟨h.symm, by omega⟩

theorem hashAlg_iff (t : Bool) (a : AlgId) : hashAlgOk t a = true ↔ IsSha256 t a := by
  unfold hashAlgOk IsSha256 hashOidOk isNullObject
  generalize ([0x60, 0x86, 0x48, 0x01, 0x65, 0x03, 0x04, 0x02, 0x01] : List Byte) = K
  generalize ([5, 0] : List Byte) = N
  by_cases h : a.oid = K
  · cases hp : a.params with
    | none => simp [h]
    | some p =>
      by_cases h5 : p = N
      · simp [h, h5]
      · simp [h, h5]
  · simp [h]

theorem sigAlg_iff (a : AlgId) : sigAlgOk a = true ↔ IsRsa a := by
  unfold sigAlgOk IsRsa isNullObject
  have key : (a.oid.length = 9 ∧ a.oid.take 8 = [0x2a, 0x86, 0x48, 0x86, 0xf7, 0x0d, 0x01, 0x01] ∧ (a.oid[8]? = some 1 ∨ a.oid[8]? = some 11)) ↔
      (a.oid = [0x2a, 0x86, 0x48, 0x86, 0xf7, 0x0d, 0x01, 0x01, 0x01] ∨ a.oid = [0x2a, 0x86, 0x48, 0x86, 0xf7, 0x0d, 0x01, 0x01, 0x0b]) := by
    constructor
    · rintro ⟨hl, ht, hx⟩
      have e : a.oid = a.oid.take 8 ++ a.oid.drop 8 := (List.take_append_drop 8 _).symm
      have hd : ∃ x, a.oid.drop 8 = [x] := List.length_eq_one_iff.1 (by rw [List.length_drop, hl])
      obtain ⟨x, hd⟩ := hd
      have hx8 : a.oid[8]? = some x := by
        have := congrArg (·[0]?) hd
        simpa [List.getElem?_drop] using this
      rw [hx8] at hx
      rw [e, ht, hd]
      rcases hx with hx | hx <;> cases hx <;> simp
    · rintro (h | h) <;> rw [h] <;> simp
  rw [← key]
  clear key
  generalize ([0x2a, 0x86, 0x48, 0x86, 0xf7, 0x0d, 0x01, 0x01] : List Byte) = K
  generalize ([5, 0] : List Byte) = N
  generalize a.oid[8]? = o
  generalize (some (1 : Byte)) = x1
  generalize (some (11 : Byte)) = x2
  by_cases h1 : a.oid.length = 9
  · by_cases h2 : a.oid.take 8 = K
    · by_cases h3 : o = x1 ∨ o = x2
      · rw [if_neg (by simp [h1]), if_neg (by simp [h2]), if_neg (by tauto)]
        cases hp : a.params with
        | none => simp [h1, h2, h3]
        | some p => simp [h1, h2, h3]
      · rw [if_neg (by simp [h1]), if_neg (by simp [h2]), if_pos (by tauto)]
        simp [h3]
    · rw [if_neg (by simp [h1]), if_pos h2]; simp [h2]
  · rw [if_pos h1]; simp [h1]

theorem contentType_iff {C} (env : Env C) (v t : List Byte) : contentTypeOk env v t = true ↔ env.decodeOid v = some t := by
  unfold contentTypeOk
  cases env.decodeOid v <;> simp

theorem messageDigest_iff {C} (env : Env C) (v : List Byte) (c : Option (List Byte)) : messageDigestOk env v c = true ↔
    ∃ x, c = some x ∧ env.decodeOctets v = some (env.sha256 x) := by
  unfold messageDigestOk
  cases c with
  | none => simp
  | some x => cases env.decodeOctets v <;> simp

/-- None if it was found before, else exactly one. -/
def One (p : Attr → Prop) (found : Bool) (l : List Attr) : Prop := if found then l = [] else ∃ a, l = [a] ∧ p a

theorem attrsLoop_iff {C} (env : Env C) (t : List Byte) (c : Option (List Byte)) : ∀ (as : List Attr) (ct md st : Bool),
    attrsLoop env t c ct md st as = true ↔ ∃ cs ms ss, as.Perm (cs ++ ms ++ ss) ∧
      One (AttrIs oidContentType (fun v => contentTypeOk env v t = true)) ct cs ∧
      One (AttrIs oidMessageDigest (fun v => messageDigestOk env v c = true)) md ms ∧
      One (AttrIs oidSigningTime (fun _ => True)) st ss := by
  intro as
  induction as with
  | nil =>
    intro ct md st
    constructor
    · intro h
      simp only [attrsLoop, Bool.and_eq_true] at h
      obtain ⟨⟨rfl, rfl⟩, rfl⟩ := h
      exact ⟨[], [], [], by simp, by simp [One], by simp [One], by simp [One]⟩
    · rintro ⟨cs, ms, ss, hp, h1, h2, h3⟩
      have hnil := hp.symm.eq_nil
      simp only [List.append_eq_nil_iff] at hnil
      obtain ⟨⟨rfl, rfl⟩, rfl⟩ := hnil
      unfold One at h1 h2 h3
      cases ct <;> cases md <;> cases st <;> simp_all [attrsLoop]
  | cons a as ih =>
    intro ct md st
    constructor
    · intro h
      unfold attrsLoop at h
      split at h
      · rename_i v hv
        split at h
        · cases h
        · rename_i arcs harcs
          split at h
          · rename_i e
            subst e
            split at h
            · cases h
            · rename_i hct
              split at h
              · rename_i hok
                obtain ⟨cs, ms, ss, hp, h1, h2, h3⟩ := (ih _ _ _).1 h
                simp only [One, if_true] at h1
                subst h1
                refine ⟨[a], ms, ss, by simpa using hp.cons a, ?_, h2, h3⟩
                simp only [One, hct]
                exact ⟨a, rfl, (names_iff _ _).1 harcs, v, hv, hok⟩
              · cases h
          · split at h
            · rename_i e
              subst e
              split at h
              · cases h
              · rename_i hmd
                split at h
                · rename_i hok
                  obtain ⟨cs, ms, ss, hp, h1, h2, h3⟩ := (ih _ _ _).1 h
                  simp only [One, if_true] at h2
                  subst h2
                  refine ⟨cs, [a], ss, ?_, h1, ?_, h3⟩
                  · rw [List.append_nil] at hp
                    simpa using (hp.cons a).trans List.perm_middle.symm
                  · simp only [One, hmd]
                    exact ⟨a, rfl, (names_iff _ _).1 harcs, v, hv, hok⟩
                · cases h
            · split at h
              · rename_i e
                subst e
                split at h
                · cases h
                · rename_i hst
                  obtain ⟨cs, ms, ss, hp, h1, h2, h3⟩ := (ih _ _ _).1 h
                  simp only [One, if_true] at h3
                  subst h3
                  refine ⟨cs, ms, [a], ?_, h1, h2, ?_⟩
                  · rw [List.append_nil] at hp
                    exact (hp.cons a).trans (List.perm_append_singleton a _).symm
                  · simp only [One, hst]
                    exact ⟨a, rfl, (names_iff _ _).1 harcs, v, hv, trivial⟩
              · cases h
      · cases h
    · rintro ⟨cs, ms, ss, hp, h1, h2, h3⟩
      have hmem : a ∈ cs ++ ms ++ ss := hp.subset (List.mem_cons_self ..)
      simp only [List.mem_append] at hmem
      have hone : ∀ {p found l}, One p found l → a ∈ l → found = false ∧ l = [a] ∧ p a := by
        intro p found l h hm
        unfold One at h
        cases found with
        | true => simp only [if_true] at h; subst h; cases hm
        | false =>
          simp only [Bool.false_eq_true, if_false] at h
          obtain ⟨b, rfl, hb⟩ := h
          have := List.mem_singleton.1 hm
          subst this
          exact ⟨rfl, rfl, hb⟩
      have hempty : ∀ {p : Attr → Prop}, One p true [] := by intro p; simp [One]
      rcases hmem with (hm | hm) | hm
      · obtain ⟨rfl, rfl, hn, v, hv, hok⟩ := hone h1 hm
        have hp' : as.Perm ([] ++ ms ++ ss) := by
          have : (a :: as).Perm (a :: (ms ++ ss)) := by simpa using hp
          simpa using this.cons_inv
        have := (ih true md st).2 ⟨[], ms, ss, hp', hempty, h2, h3⟩
        unfold attrsLoop
        simp only [hv, (names_iff _ _).2 hn]
        rw [if_pos (show oidContentType = ctaArcs from rfl), if_neg (by simp), if_pos hok, this]
      · obtain ⟨rfl, rfl, hn, v, hv, hok⟩ := hone h2 hm
        have hp' : as.Perm (cs ++ [] ++ ss) := by
          have : (a :: as).Perm (a :: (cs ++ ss)) := hp.trans (by simpa using List.perm_middle)
          simpa using this.cons_inv
        have := (ih ct true st).2 ⟨cs, [], ss, hp', h1, hempty, h3⟩
        unfold attrsLoop
        simp only [hv, (names_iff _ _).2 hn]
        rw [if_neg (show ¬ oidMessageDigest = ctaArcs by decide), if_pos (show oidMessageDigest = mdaArcs from rfl), if_neg (by simp),
          if_pos hok, this]
      · obtain ⟨rfl, rfl, hn, v, hv, -⟩ := hone h3 hm
        have hp' : as.Perm (cs ++ ms ++ []) := by
          have : (a :: as).Perm (a :: (cs ++ ms)) := hp.trans (List.perm_append_singleton a _)
          simpa using this.cons_inv
        have := (ih ct md true).2 ⟨cs, ms, [], hp', h1, h2, hempty⟩
        unfold attrsLoop
        simp only [hv, (names_iff _ _).2 hn]
        rw [if_neg (show ¬ oidSigningTime = ctaArcs by decide), if_neg (show ¬ oidSigningTime = mdaArcs by decide),
          if_pos (show oidSigningTime = staArcs from rfl), if_neg (by simp), this]

theorem signedAttrs_iff {C} (env : Env C) (si : SignerInfo) (sd : SignedData) : signedAttrsOk env si sd = true ↔
    ∃ content, sd.eContent = some content ∧ ∃ as ct md st, si.signedAttrs = some as ∧ as.Perm [ct, md, st] ∧
    AttrIs oidContentType (fun v => env.decodeOid v = some sd.eContentType) ct ∧
    AttrIs oidMessageDigest (fun v => env.decodeOctets v = some (env.sha256 content)) md ∧
    AttrIs oidSigningTime (fun _ => True) st := by
  unfold signedAttrsOk
  cases hs : si.signedAttrs with
  | none => simp
  | some as =>
    simp only
    rw [attrsLoop_iff]
    constructor
    · rintro ⟨cs, ms, ss, hp, ⟨a, rfl, ha⟩, ⟨b, rfl, hb⟩, ⟨c, rfl, hc⟩⟩
      obtain ⟨hn, v, hv, hok⟩ := hb
      obtain ⟨x, hx, hd⟩ := (messageDigest_iff _ _ _).1 hok
      obtain ⟨hn', v', hv', hok'⟩ := ha
      exact ⟨x, hx, as, a, b, c, rfl, hp, ⟨hn', v', hv', (contentType_iff _ _ _).1 hok'⟩, ⟨hn, v, hv, hd⟩, hc⟩
    · rintro ⟨x, hx, as', a, b, c, e, hp, ⟨hn', v', hv', hok'⟩, ⟨hn, v, hv, hd⟩, hc⟩
      cases e
      exact ⟨[a], [b], [c], hp, ⟨a, rfl, hn', v', hv', (contentType_iff _ _ _).2 hok'⟩,
        ⟨b, rfl, hn, v, hv, (messageDigest_iff _ _ _).2 ⟨x, hx, hd⟩⟩, ⟨c, rfl, hc⟩⟩

/-- The attribute that the first search finds. -/
theorem findContentType_perm {C} (env : Env C) {t : List Byte} : ∀ {as : List Attr} {ct md st : Attr}, as.Perm [ct, md, st] →
    AttrIs oidContentType (fun v => env.decodeOid v = some t) ct → (∃ p, AttrIs oidMessageDigest p md) → (∃ p, AttrIs oidSigningTime p st) →
    findContentType env as = some t := by
  suffices ∀ (as : List Attr), (∀ a ∈ as, (AttrIs oidContentType (fun v => env.decodeOid v = some t) a) ∨ (∃ p, AttrIs oidMessageDigest p a) ∨
      (∃ p, AttrIs oidSigningTime p a)) → (∃ a ∈ as, AttrIs oidContentType (fun v => env.decodeOid v = some t) a) →
      findContentType env as = some t by
    intro as ct md st hp h1 h2 h3
    refine this as (fun a ha => ?_) ⟨ct, hp.symm.subset (by simp), h1⟩
    have := hp.subset ha
    simp only [List.mem_cons, List.not_mem_nil, or_false] at this
    rcases this with rfl | rfl | rfl
    · exact .inl h1
    · exact .inr (.inl h2)
    · exact .inr (.inr h3)
  intro as
  induction as with
  | nil => rintro - ⟨a, ha, -⟩; cases ha
  | cons a as ih =>
    rintro hall ⟨b, hb, hbc⟩
    unfold findContentType
    rcases hall a (List.mem_cons_self ..) with ⟨hn, v, hv, hd⟩ | ⟨p, hn, v, hv, -⟩ | ⟨p, hn, v, hv, -⟩
    · rw [(names_iff _ _).2 hn]
      simp only
      rw [if_pos (show oidContentType = ctaArcs from rfl), hv]
      exact hd
    · rw [(names_iff _ _).2 hn]
      simp only
      rw [if_neg (show ¬ oidMessageDigest = ctaArcs by decide)]
      rcases List.mem_cons.1 hb with rfl | hb
      · have := (names_iff _ _).2 hbc.1
        rw [(names_iff _ _).2 hn] at this
        exact absurd this (by decide)
      · exact ih (fun x hx => hall x (List.mem_cons_of_mem _ hx)) ⟨b, hb, hbc⟩
    · rw [(names_iff _ _).2 hn]
      simp only
      rw [if_neg (show ¬ oidSigningTime = ctaArcs by decide)]
      rcases List.mem_cons.1 hb with rfl | hb
      · have := (names_iff _ _).2 hbc.1
        rw [(names_iff _ _).2 hn] at this
        exact absurd this (by decide)
      · exact ih (fun x hx => hall x (List.mem_cons_of_mem _ hx)) ⟨b, hb, hbc⟩

theorem handleCertificate_iff {C} (env : Env C) (cert sid encoded signature : List Byte) : handleCertificate env cert sid encoded signature = .ok ↔
    ∃ c b, env.decodeCert cert = some c ∧ env.chainOk c = true ∧ env.profileOk c = true ∧ env.extensionsOk c sid = true ∧
      env.resourcesOk c = true ∧ signedBytes encoded = .bytes b ∧ env.verify c b signature = true := by
  unfold handleCertificate
  cases env.decodeCert cert with
  | none => simp
  | some c =>
    unfold signatureOut
    cases h1 : env.chainOk c <;> cases h2 : env.profileOk c <;> cases h3 : env.extensionsOk c sid <;> cases h4 : env.resourcesOk c <;>
      cases h5 : signedBytes encoded <;> simp [h1, h2, h3, h4]
    all_goals (split <;> simp_all)

/-- **C86.** An object is accepted, as one of the type `oid`, if and only if it complies with the profile of RFC 6488, and its
certificate is good and its key made the signature. -/
theorem C86_accepts {C} (env : Env C) (oid : List Nat) (encoded : List Byte) (sd : SignedData) :
    signedObjectValidate env oid encoded sd = .ok ↔
    ∃ si cert sid content c b, Profile env oid sd si cert sid content ∧ env.decodeCert cert = some c ∧ env.chainOk c = true ∧
      env.profileOk c = true ∧ env.extensionsOk c sid = true ∧ env.resourcesOk c = true ∧
      signedBytes encoded = .bytes b ∧ env.verify c b si.signature = true := by
  have crl : ∀ o : Option Nat, ¬ o.getD 0 > 0 ↔ (o = none ∨ o = some 0) := by
    intro o; cases o <;> simp
  unfold signedObjectValidate
  constructor
  · intro h
    split at h
    · cases h
    · rename_i h0
      split at h
      · cases h
      · split at h
        · cases h
        · unfold signedDataValidate at h
          split at h
          · rename_i si hsi
            split at h
            · cases h
            · rename_i hv
              split at h
              · rename_i da hda
                split at h
                · cases h
                · rename_i hha
                  split at h
                  · cases h
                  · rename_i hcrl
                    split at h
                    · cases h
                    · rename_i hv2
                      split at h
                      · cases h
                      · rename_i sid hsid
                        split at h
                        · cases h
                        · rename_i hhb
                          split at h
                          · cases h
                          · rename_i hat
                            split at h
                            · cases h
                            · rename_i hsg
                              split at h
                              · cases h
                              · rename_i hun
                                split at h
                                · cases h
                                · rename_i cert hcert
                                  obtain ⟨c, b, hc⟩ := (handleCertificate_iff _ _ _ _ _).1 h
                                  obtain ⟨content, hcon, hattrs⟩ := (signedAttrs_iff _ _ _).1 (by simpa using hat)
                                  refine ⟨si, cert, sid, content, c, b, ⟨(int3 _).1 (by simpa using hv), hsi, (int3 _).1 (by simpa using hv2),
                                    ⟨da, hda, (hashAlg_iff _ _).1 (by simpa using hha)⟩, (hashAlg_iff _ _).1 (by simpa using hhb),
                                    (sigAlg_iff _).1 (by simpa using hsg), hcert, ?_, (crl _).1 hcrl, (crl _).1 hun,
                                    (names_iff _ _).1 (by simpa using h0), hcon, hattrs⟩, hc⟩
                                  unfold getSid at hsid
                                  split at hsid
                                  · rename_i b e; cases hsid; exact e
                                  · cases hsid
                                  · cases hsid
                                · cases h
              · cases h
          · cases h
  · rintro ⟨si, cert, sid, content, c, b, hp, hc⟩
    have hct : getContentTypeAttr env sd = some sd.eContentType := by
      obtain ⟨as, ct, md, st, h1, h2, h3, h4, h5⟩ := hp.attrs
      unfold getContentTypeAttr
      rw [hp.signer]
      simp only [h1]
      exact findContentType_perm env h2 h3 ⟨_, h4⟩ ⟨_, h5⟩
    have hn := (names_iff _ _).2 hp.type
    rw [if_neg (by simp [hn]), hct]
    simp only
    rw [if_neg (by simp [hn])]
    unfold signedDataValidate
    obtain ⟨da, hda, hda2⟩ := hp.digest
    rw [hp.signer]
    simp only
    rw [if_neg (by simp [(int3 _).2 hp.version]), hda]
    simp only
    rw [if_neg (by simp [(hashAlg_iff _ _).2 hda2]), if_neg ((crl _).2 hp.noCrls), if_neg (by simp [(int3 _).2 hp.signerVersion])]
    have hs : getSid si = some sid := by unfold getSid; rw [hp.signerId]
    rw [hs]
    simp only
    rw [if_neg (by simp [(hashAlg_iff _ _).2 hp.signerDigest]), if_neg (by simp [(signedAttrs_iff _ _ _).2 ⟨content, hp.hasContent, hp.attrs⟩]),
      if_neg (by simp [(sigAlg_iff _).2 hp.signature]), if_neg ((crl _).2 hp.noUnsigned), hp.certificate]
    exact (handleCertificate_iff _ _ _ _ _).2 ⟨c, b, hc⟩

namespace Ex

/-- Elements have a tag and a length; the hash is a sum; the certificate's key signs by adding a zero. -/
def env : Env Byte where
  decodeOid := fun v => if v.head? = some 6 then some (v.drop 2) else none
  decodeOctets := fun v => if v.head? = some 4 then some (v.drop 2) else none
  sha256 := fun c => [c.foldl (· + ·) 0]
  nullParamsOk := false
  decodeCert := fun l => l.head?
  chainOk := fun c => c == 0xCE
  profileOk := fun _ => true
  extensionsOk := fun _ sid => sid == [0xAA, 0xBB]
  resourcesOk := fun _ => true
  verify := fun _ b s => s == b ++ [0]

def roaType : List Byte := [0x2a, 0x86, 0x48, 0x86, 0xf7, 0x0d, 0x01, 0x09, 0x10, 0x01, 0x18]
def attrType (n : Byte) : List Byte := [0x2a, 0x86, 0x48, 0x86, 0xf7, 0x0d, 0x01, 0x09, n]
def sha : AlgId := ⟨[0x60, 0x86, 0x48, 0x01, 0x65, 0x03, 0x04, 0x02, 0x01], none⟩

/-- A signer, and an object with the content 1, 2, 3. The attributes are in an unusual order. -/
def signer : SignerInfo :=
  ⟨[3], .ski [0xAA, 0xBB], sha, some [⟨attrType 4, [[4, 1, 6]]⟩, ⟨attrType 5, [[0x17, 0]]⟩, ⟨attrType 3, [[6, 11] ++ roaType]⟩],
   ⟨[0x2a, 0x86, 0x48, 0x86, 0xf7, 0x0d, 0x01, 0x01, 0x01], some [5, 0]⟩, [0x31, 4, 0x30, 2, 1, 1, 0], none⟩
def sdata : SignedData := ⟨[3], [sha], roaType, some [1, 2, 3], some [[0xCE, 1]], none, [signer]⟩

theorem accepted : signedObjectValidate env oidRoa (object [4, 0x30, 2, 1, 1]) sdata = .ok := by decide +kernel

end Ex

/-- The profile has instances, and also objects that are rejected by each of its parts. -/
example : ∃ cert sid content, Profile Ex.env oidRoa Ex.sdata Ex.signer cert sid content := by
  obtain ⟨si, cert, sid, content, c, b, hp, -⟩ := (C86_accepts _ _ _ _).1 Ex.accepted
  have : [Ex.signer] = [si] := hp.signer
  cases this
  exact ⟨cert, sid, content, hp⟩

example : signedObjectValidate Ex.env oidManifest (Ex.object [4, 0x30, 2, 1, 1]) Ex.sdata = .err := by decide +kernel
example : signedObjectValidate Ex.env oidRoa (Ex.object [4, 0x30, 2, 1, 1]) { Ex.sdata with signerInfos := [Ex.signer, Ex.signer] } = .err := by
  decide +kernel
example : signedObjectValidate Ex.env oidRoa (Ex.object [4, 0x30, 2, 1, 1]) { Ex.sdata with eContent := some [1, 2, 4] } = .err := by
  decide +kernel

/-- **C87, what was signed.** The encoding of an accepted object, if its attributes have a definite length, was signed by the
certificate's key: the signature is of the attributes as they are encoded, and according to them, the content has the content's hash. -/
theorem C87_authentic_partial {C} {env : Env C} {oid : List Nat} {encoded attrs : List Byte} {sd : SignedData} (hl : Layout encoded attrs)
    (hd : Definite attrs) (h : signedObjectValidate env oid encoded sd = .ok) :
    ∃ si cert c content as md v, sd.signerInfos = [si] ∧ sd.certificates = some [cert] ∧ env.decodeCert cert = some c ∧
      env.verify c (0x31 :: attrs) si.signature = true ∧ sd.eContent = some content ∧ si.signedAttrs = some as ∧ md ∈ as ∧
      Names md.type oidMessageDigest ∧ md.values = [v] ∧ env.decodeOctets v = some (env.sha256 content) := by
  obtain ⟨si, cert, sid, content, c, b, hp, h1, -, -, -, -, h2, h3⟩ := (C86_accepts _ _ _ _).1 h
  obtain ⟨as, ct, md, st, e, hperm, -, ⟨hn, v, hv, hdg⟩, -⟩ := hp.attrs
  rw [C84_partial hl hd] at h2
  cases h2
  exact ⟨si, cert, c, content, as, md, v, hp.signer, hp.certificate, h1, h3, hp.hasContent, e, hperm.symm.subset (by simp), hn, hv, hdg⟩

/-- **C87 does not hold in general.** If the attributes have an indefinite length, the signature that is checked is not theirs: it's
that of the octet 0x31. So the same signature does for any attributes and any content. -/
theorem C87_indefinite {C} {env : Env C} {oid : List Nat} {encoded attrs : List Byte} {sd : SignedData} (hl : Layout encoded attrs)
    (hd : ¬ Definite attrs) (h : signedObjectValidate env oid encoded sd = .ok) :
    ∃ si cert c, sd.signerInfos = [si] ∧ sd.certificates = some [cert] ∧ env.decodeCert cert = some c ∧
      env.verify c [0x31] si.signature = true := by
  obtain ⟨si, cert, sid, content, c, b, hp, h1, -, -, -, -, h2, h3⟩ := (C86_accepts _ _ _ _).1 h
  rw [C84_indefinite hl hd] at h2
  cases h2
  exact ⟨si, cert, c, hp.signer, hp.certificate, h1, h3⟩

/-- Objects with different contents, and the same signature: both are accepted. -/
theorem C87_refuted : ∃ (encoded attrs : List Byte) (sd sd' : SignedData) (si si' : SignerInfo), Layout encoded attrs ∧ sd.signerInfos = [si] ∧
    sd'.signerInfos = [si'] ∧ si.signature = si'.signature ∧ sd.certificates = sd'.certificates ∧ Ex.env.sha256 [1, 2, 3] ≠ Ex.env.sha256 [7] ∧
    sd.eContent = some [1, 2, 3] ∧ sd'.eContent = some [7] ∧
    signedObjectValidate Ex.env oidRoa encoded sd = .ok ∧ signedObjectValidate Ex.env oidRoa encoded sd' = .ok := by
  refine ⟨Ex.object [0x80, 0x30, 2, 1, 1, 0, 0], _,
    { Ex.sdata with signerInfos := [{ Ex.signer with signature := [0x31, 0] }] },
    { Ex.sdata with eContent := some [7], signerInfos := [{ Ex.signer with
      signature := [0x31, 0]
      signedAttrs := some [⟨Ex.attrType 4, [[4, 1, 7]]⟩, ⟨Ex.attrType 5, [[0x17, 0]]⟩, ⟨Ex.attrType 3, [[6, 11] ++ Ex.roaType]⟩] }] },
    _, _, Ex.layout _ Ex.enc_indef (by decide), rfl, rfl, rfl, rfl, by decide, rfl, rfl, ?_, ?_⟩
  · decide +kernel
  · decide +kernel

/-- **C87, tampering.** If the content of an accepted object is replaced by one with another hash (or none), whatever the encoding
becomes, it is not accepted. The same goes for its type. -/
theorem C87_tamper {C} {env : Env C} {oid oid' : List Nat} {encoded encoded' : List Byte} {sd : SignedData}
    (h : signedObjectValidate env oid encoded sd = .ok) :
    (∀ c c', sd.eContent = some c → env.sha256 c' ≠ env.sha256 c →
      signedObjectValidate env oid' encoded' { sd with eContent := some c' } ≠ .ok) ∧
    signedObjectValidate env oid' encoded' { sd with eContent := none } ≠ .ok ∧
    ∀ t, t ≠ sd.eContentType → signedObjectValidate env oid' encoded' { sd with eContentType := t } ≠ .ok := by
  obtain ⟨si, cert, sid, content, c, b, hp, -⟩ := (C86_accepts _ _ _ _).1 h
  obtain ⟨as, ct, md, st, e, hperm, hct, hmd, hst⟩ := hp.attrs
  have same : ∀ {arcs arcs' p p' a}, AttrIs arcs p a → AttrIs arcs' p' a → arcs = arcs' ∧ ∃ v, p v ∧ p' v := by
    rintro arcs arcs' p p' a ⟨h1, v, hv, h2⟩ ⟨h3, w, hw, h4⟩
    rw [hv] at hw
    cases hw
    exact ⟨Option.some.inj (((names_iff _ _).2 h1).symm.trans ((names_iff _ _).2 h3)), v, h2, h4⟩
  refine ⟨fun x c' hx hne h' => ?_, fun h' => ?_, fun t ht h' => ?_⟩
  · obtain ⟨si', cert', sid', content', _, _, hp', -⟩ := (C86_accepts _ _ _ _).1 h'
    obtain ⟨as', ct', md', st', e', hperm', hct', hmd', hst'⟩ := hp'.attrs
    have e1 := hp'.signer
    simp only [hp.signer, List.cons.injEq, and_true] at e1
    subst e1
    rw [e] at e'
    cases e'
    have hc' := hp'.hasContent
    simp only [Option.some.injEq] at hc'
    subst hc'
    rw [hp.hasContent] at hx
    cases hx
    have hm : md' ∈ [ct, md, st] := hperm.subset (hperm'.symm.subset (by simp))
    simp only [List.mem_cons, List.not_mem_nil, or_false] at hm
    rcases hm with rfl | rfl | rfl
    · exact absurd (same hct hmd').1 (by decide)
    · obtain ⟨-, v, h1, h2⟩ := same hmd hmd'
      rw [h1] at h2
      exact hne (Option.some.inj h2).symm
    · exact absurd (same hst hmd').1 (by decide)
  · obtain ⟨si', cert', sid', content', _, _, hp', -⟩ := (C86_accepts _ _ _ _).1 h'
    cases hp'.hasContent
  · obtain ⟨si', cert', sid', content', _, _, hp', -⟩ := (C86_accepts _ _ _ _).1 h'
    obtain ⟨as', ct', md', st', e', hperm', hct', hmd', hst'⟩ := hp'.attrs
    have e1 := hp'.signer
    simp only [hp.signer, List.cons.injEq, and_true] at e1
    subst e1
    rw [e] at e'
    cases e'
    have hm : ct' ∈ [ct, md, st] := hperm.subset (hperm'.symm.subset (by simp))
    simp only [List.mem_cons, List.not_mem_nil, or_false] at hm
    rcases hm with rfl | rfl | rfl
    · obtain ⟨-, v, h1, h2⟩ := same hct hct'
      rw [h1] at h2
      exact ht (Option.some.inj h2).symm
    · exact absurd (same hmd hct').1 (by decide)
    · exact absurd (same hst hct').1 (by decide)

/-- The hypotheses are met. -/
example : Layout (Ex.object [4, 0x30, 2, 1, 1]) [4, 0x30, 2, 1, 1] ∧ Definite [4, 0x30, 2, 1, 1] ∧
    signedObjectValidate Ex.env oidRoa (Ex.object [4, 0x30, 2, 1, 1]) Ex.sdata = .ok :=
  ⟨Ex.layout _ Ex.enc_def (by decide), ⟨[4], [0x30, 2, 1, 1], rfl, .inl ⟨_, rfl, by decide, by decide⟩⟩, Ex.accepted⟩

end Verif.Cms
