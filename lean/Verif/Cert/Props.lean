import Verif.Cert.Lemmas
import Verif.Ext.Props
/-
C121–C128: names, keys, certificates, serial numbers, CRLs, chains.
-/
namespace Verif.Cert
open Verif.Res (Byte)

/-! ## C121: names -/

/-- **C121 (what's accepted).** A name is decoded if and only if all of its attributes are common names and serial numbers, and there's a common name; the result is the last one of each. -/
theorem C121_decode (attrs : List Attr) (cn : List Byte) (sn : Option (List Byte)) :
    (∃ n, (nameDecode attrs).1 = some n ∧ n.commonName = some cn ∧ n.serialNumber = sn) ↔
      Readable attrs ∧ Last .commonName attrs (some cn) ∧ Last .serialNumber attrs sn := by
  constructor
  · rintro ⟨n, h, h1, h2⟩
    obtain ⟨hr, rfl⟩ := (nameDecode_iff ..).1 h
    have hl := (readable_iff.1 hr).1
    exact ⟨hr, (lastOf_iff hl _).1 h1, (lastOf_iff hl _).1 h2⟩
  · rintro ⟨hr, h1, h2⟩
    have hl := (readable_iff.1 hr).1
    exact ⟨_, (nameDecode_iff ..).2 ⟨hr, rfl⟩, (lastOf_iff hl _).2 h1, (lastOf_iff hl _).2 h2⟩

theorem conforms_last {attrs : List Attr} {cn : List Byte} {sn : Option (List Byte)} (h : Conforms attrs cn sn) :
    Readable attrs ∧ lastOf .commonName attrs = some cn ∧ lastOf .serialNumber attrs = sn := by
  cases h <;> simp [Readable, lastOf]

/-- **C121 (conforming names).** A name with one common name and at most one serial number is decoded to just that, and no memory is lost. -/
theorem C121_conforming_partial (attrs : List Attr) (cn : List Byte) (sn : Option (List Byte)) (h : Conforms attrs cn sn) :
    ∃ n, nameDecode attrs = (some n, 0) ∧ n.commonName = some cn ∧ n.serialNumber = sn := by
  cases h <;> exact ⟨_, rfl, rfl, rfl⟩

/-- **C121 (memory).** Decoding a name that's accepted loses a buffer for each repeated attribute. -/
theorem C121_leak (attrs : List Attr) (n : Name) (h : (nameDecode attrs).1 = some n) :
    (nameDecode attrs).2 = attrs.length - (1 + n.serialNumber.toList.length) := by
  obtain ⟨hr, hn⟩ := (nameDecode_iff ..).1 h
  have hd := decodeLoop_iff attrs ⟨none, none, 0⟩
  simp only [Option.or_none, Nat.zero_add] at hd
  obtain ⟨hl, hc⟩ := readable_iff.1 hr
  unfold nameDecode
  rw [(hd _).2 ⟨hl, hn⟩]
  simp only
  have hc' : n.commonName ≠ none := by rw [hn]; exact hc
  rw [if_neg hc']
  simp only
  cases hx : n.commonName with
  | none => exact absurd hx hc'
  | some x =>
    have hb : n.buffers = attrs.length := by rw [hn]
    unfold Name.held
    rw [hx, hb]
    rfl

/-- **C121 is false of the code.** RFC 6487 wants one common name; two are accepted, the last one wins, and the first one's memory is lost. -/
theorem C121_refuted : nameDecode [⟨.commonName, some [65#8]⟩, ⟨.commonName, some [66#8]⟩] = (some ⟨some [66#8], none, 2⟩, 1) := rfl

example : Conforms [⟨.serialNumber, some [1#8]⟩, ⟨.commonName, some [65#8]⟩] [65#8] (some [1#8]) := .last _ _
example : ¬ Readable [⟨.serialNumber, some [1#8]⟩] := by simp [Readable]
example : (nameDecode [⟨.commonName, some [65#8]⟩, ⟨.other 7, some [65#8]⟩]).1 = none := rfl

/-! ## C122: the issuer -/

/-- **C122 (general).** The issuer is accepted if and only if there's a parent, both names can be decoded, and they are the same up to NULs (and repeated attributes). -/
theorem C122_issuer (parent : Option (List Attr)) (issuer : List Attr) : validateIssuerName parent issuer = some true ↔
    ∃ subject, parent = some subject ∧ Readable subject ∧ Readable issuer ∧ SameName subject issuer := validateIssuerName_iff parent issuer

/-- **C122 (conforming names).** If both names conform to RFC 6487 and have no NULs, the issuer is accepted if and only if it's the parent's subject. -/
theorem C122_conforming_partial (subject issuer : List Attr) (cn cn' : List Byte) (sn sn' : Option (List Byte))
    (h : Conforms subject cn sn) (h' : Conforms issuer cn' sn') (hf : ∀ t, t = some cn ∨ t = some cn' ∨ t = sn ∨ t = sn' → ∀ x, t = some x → 0#8 ∉ x) :
    validateIssuerName (some subject) issuer = some true ↔ cn = cn' ∧ sn = sn' := by
  obtain ⟨r1, a1, b1⟩ := conforms_last h
  obtain ⟨r2, a2, b2⟩ := conforms_last h'
  have l1 := (readable_iff.1 r1).1
  have l2 := (readable_iff.1 r2).1
  rw [C122_issuer]
  have f1 := hf _ (Or.inl rfl) _ rfl
  have f2 := hf _ (Or.inr (Or.inl rfl)) _ rfl
  have f3 := hf sn (Or.inr (Or.inr (Or.inl rfl)))
  have f4 := hf sn' (Or.inr (Or.inr (Or.inr rfl)))
  constructor
  · rintro ⟨s, hs, -, -, ⟨x, y, g1, g2, g3⟩, g4⟩
    injection hs with hs
    subst hs
    rw [← lastOf_iff l1, a1] at g1
    rw [← lastOf_iff l2, a2] at g2
    injection g1 with g1
    injection g2 with g2
    subst g1 g2
    refine ⟨(sameText_of_free f1 f2).1 g3, ?_⟩
    simp only [← lastOf_iff l1, ← lastOf_iff l2, b1, b2] at g4
    rcases g4 with ⟨g4, g5⟩ | ⟨x, y, g4, g5, g6⟩
    · rw [g4, g5]
    · rw [g4, g5, (sameText_of_free (f3 x g4) (f4 y g5)).1 g6]
  · rintro ⟨rfl, rfl⟩
    refine ⟨subject, rfl, r1, r2, ⟨cn, cn, (lastOf_iff l1 _).1 a1, (lastOf_iff l2 _).1 a2, (sameText_of_free f1 f1).2 rfl⟩, ?_⟩
    simp only [← lastOf_iff l1, ← lastOf_iff l2, b1, b2]
    cases sn with
    | none => left; exact ⟨rfl, rfl⟩
    | some x => right; exact ⟨x, x, rfl, rfl, (sameText_of_free (f3 x rfl) (f3 x rfl)).2 rfl⟩

/-- **C122 (memory).** Comparing the names never reads NULL. -/
theorem C122_memory (ta : Bool) (parent : Option (List Attr)) (issuer : List Attr) : validateIssuer ta parent issuer ≠ none := validateIssuer_ne_none ta parent issuer

/-- **C122 is false of the code.** An issuer that isn't the parent's subject is accepted: `A NUL B` instead of `A`. -/
theorem C122_refuted : validateIssuerName (some [⟨.commonName, some [65#8]⟩]) [⟨.commonName, some [65#8, 0#8, 66#8]⟩] = some true := rfl

example : validateIssuerName (some [⟨.commonName, some [65#8]⟩, ⟨.serialNumber, some [49#8]⟩]) [⟨.serialNumber, some [49#8]⟩, ⟨.commonName, some [65#8]⟩] = some true := rfl
example : validateIssuerName (some [⟨.commonName, some [65#8]⟩, ⟨.serialNumber, some [49#8]⟩]) [⟨.commonName, some [65#8]⟩] = some false := rfl

/-! ## C124: RSA keys -/

/-- **C124.** An RSA key is accepted if and only if its modulus has 2048 bits or more and its exponent is 65537; no matter the version of OpenSSL. -/
theorem C124 (k : PKey) (hs : Sane k) (ht : k.type = .rsa) :
    (subjectPublicKey3 (some k) = true ↔ 2048 ≤ k.bits ∧ k.exponent = 65537) ∧ (subjectPublicKey1 (some k) = true ↔ 2048 ≤ k.bits ∧ k.exponent = 65537) := by
  obtain ⟨h1, h2⟩ := hs
  constructor
  · unfold subjectPublicKey3
    simp only [ht, ne_eq, not_true_eq_false, false_and, if_false]
    rw [if_neg (by omega)]
    by_cases h3 : k.bits < 2048
    · rw [if_pos h3]; simp; omega
    · rw [if_neg h3, if_neg (by omega)]
      by_cases h4 : k.exponent = 65537
      · rw [if_neg (by simp [h4])]; simp [h4]; omega
      · rw [if_pos h4]; simp [h4]
  · unfold subjectPublicKey1
    simp only [ht, reduceCtorEq, if_false]
    by_cases h3 : k.bits < 2048
    · rw [if_pos h3]; simp; omega
    · rw [if_neg h3]
      simp only [ne_eq, bn2dec_65537]
      by_cases h4 : k.exponent = 65537
      · rw [if_neg (by simp [h4])]; simp [h4]; omega
      · rw [if_pos h4]; simp [h4]

/-- **C124 (other keys).** Keys that can't be decoded are rejected; OpenSSL 3 also rejects those that aren't RSA, and the others reject those that can't be RSA. -/
theorem C124_other (k : PKey) : subjectPublicKey3 none = false ∧ subjectPublicKey1 none = false ∧
    (k.type ≠ .rsa → k.type ≠ .rsa2 → subjectPublicKey3 (some k) = false) ∧ (k.type = .other → subjectPublicKey1 (some k) = false) := by
  refine ⟨rfl, rfl, ?_, ?_⟩
  · intro h1 h2; simp [subjectPublicKey3, h1, h2]
  · intro h; simp [subjectPublicKey1, h]

/-- **C124 (BGPsec).** The key of a router is accepted if and only if it's an elliptic curve's, and the curve is prime256v1. -/
theorem C124_bgpsec (a : Alg) (p : AlgParam) : publicKeyAlgorithmBgpsec a p = true ↔ a = .ecPublicKey ∧ p = .oid true := by
  unfold publicKeyAlgorithmBgpsec
  by_cases h : a = .ecPublicKey
  · rw [if_neg (by simp [h])]
    cases p <;> simp [h]
  · rw [if_pos h]; simp [h]

example : Sane ⟨.rsa, 2048, 65537⟩ ∧ subjectPublicKey1 (some ⟨.rsa, 2048, 65537⟩) = true ∧ subjectPublicKey3 (some ⟨.rsa, 2047, 65537⟩) = false := by
  refine ⟨by unfold Sane; decide, rfl, rfl⟩

/-! ## C123, C125 -/

/-- libcrypto says a key is RSA, and its numbers fit. -/
def Regular (c : Cert) : Prop := ∀ k, c.key = some k → Sane k ∧ (c.algorithm = .rsaEncryption → k.type = .rsa)

theorem rsa_iff (env : Env) {c : Cert} (hr : Regular c) (ha : c.algorithm = .rsaEncryption) :
    subjectPublicKey env.openssl3 c.key = true ↔ ∃ k, c.key = some k ∧ RsaProfile k := by
  unfold subjectPublicKey
  cases hk : c.key with
  | none => cases env.openssl3 <;> simp [subjectPublicKey3, subjectPublicKey1]
  | some k =>
    obtain ⟨h1, h2⟩ := hr k hk
    obtain ⟨h3, h4⟩ := C124 k h1 (h2 ha)
    have : (∃ k', some k = some k' ∧ RsaProfile k') ↔ 2048 ≤ k.bits ∧ k.exponent = 65537 := by
      constructor
      · rintro ⟨k', hk', h⟩; injection hk' with hk'; subst hk'; exact h.2
      · intro h; exact ⟨k, rfl, Or.inl (h2 ha), h⟩
    rw [this]
    cases env.openssl3
    · exact h4
    · exact h3

theorem validateSpki_eq (d2i : List Byte → Option (Spki × Nat)) (tal : List Byte) (cert : Spki) (ks : KeyState) :
    validateSpki d2i tal cert ks = some (match decodeSpki d2i tal with | none => (false, ks) | some t => if t = cert then (true, .valid) else (false, .invalid)) := by
  unfold validateSpki
  cases decodeSpki d2i tal with
  | none => rfl
  | some t =>
    simp only [spkiCmp_eq]
    by_cases h : t = cert <;> simp [h]

theorem validatePublicKey_eq (env : Env) (type : Ext.CertType) (c : Cert) (ks : KeyState) : validatePublicKey env type c ks =
    some (if type = .bgpsec then (publicKeyAlgorithmBgpsec c.algorithm c.param, ks)
      else if c.algorithm ≠ .rsaEncryption then (false, ks)
      else if subjectPublicKey env.openssl3 c.key = false then (false, ks)
      else if type = .ta then
        match decodeSpki env.d2i env.tal with
        | none => (false, ks)
        | some t => if t = c.spki then (if c.key = none then false else c.selfSignature = 1, .valid) else (false, .invalid)
      else (true, ks)) := by
  unfold validatePublicKey
  simp only [publicKeyAlgorithm, validateSpki_eq, Bool.not_eq_true', decide_eq_false_iff_not]
  by_cases h1 : type = .bgpsec
  · simp [h1]
  by_cases h2 : c.algorithm = .rsaEncryption
  · cases h3 : subjectPublicKey env.openssl3 c.key with
    | false => simp [h1, h2]
    | true =>
      by_cases h4 : type = .ta
      · cases decodeSpki env.d2i env.tal with
        | none => simp [h2, h4]
        | some t =>
          by_cases ht : t = c.spki <;> simp [h2, h4, ht]
      · simp [h1, h2, h4]
  · simp [h1, h2]

/-- **C123 (trust anchors).** The key of a trust anchor is accepted if and only if it's a good RSA key, the TAL's bytes are exactly the certificate's key, and the certificate is signed by it. -/
theorem C123 (env : Env) (c : Cert) (hr : Regular c) (ks ks' : KeyState) : validatePublicKey env .ta c ks = some (true, ks') ↔
    GoodKey .ta c ∧ TalKey env c.spki ∧ c.selfSignature = 1 ∧ ks' = .valid := by
  rw [validatePublicKey_eq]
  unfold GoodKey TalKey
  rw [← decodeSpki_iff]
  simp only [reduceCtorEq, if_false, if_true, ne_eq]
  by_cases ha : c.algorithm = .rsaEncryption
  · have hrsa : subjectPublicKey env.openssl3 c.key = true ↔ _ := rsa_iff env hr ha
    cases hk : subjectPublicKey env.openssl3 c.key with
    | true =>
      obtain ⟨k, hk1, hk2⟩ := hrsa.1 hk
      have hg : (c.algorithm = .rsaEncryption ∧ ∃ k, c.key = some k ∧ RsaProfile k) := ⟨ha, k, hk1, hk2⟩
      have hg' : (∃ k', some k = some k' ∧ RsaProfile k') := ⟨k, rfl, hk2⟩
      simp only [ha, hg', true_and, hk1, reduceCtorEq, if_false, not_true_eq_false, Bool.true_eq_false]
      cases hd : decodeSpki env.d2i env.tal with
      | none => simp
      | some t =>
        by_cases ht : t = c.spki
        · simp [ht, eq_comm]
        · simp [ht]
    | false =>
      have : ¬ ∃ k, c.key = some k ∧ RsaProfile k := fun h => by rw [hrsa.2 h] at hk; cases hk
      simp [this, ha]
  · simp [ha]

/-- **C123 (the state of the key).** After the check, the key is marked valid only if it's the TAL's, and invalid only if the TAL has another one; otherwise the mark is left alone. -/
theorem C123_state (env : Env) (type : Ext.CertType) (c : Cert) (ks ks' : KeyState) (ok : Bool) (h : validatePublicKey env type c ks = some (ok, ks')) :
    ks' = ks ∨ (type = .ta ∧ ks' = .valid ∧ TalKey env c.spki) ∨ (type = .ta ∧ ks' = .invalid ∧ ok = false ∧ ∃ s, TalKey env s ∧ s ≠ c.spki) := by
  rw [validatePublicKey_eq] at h
  injection h with h
  by_cases h1 : type = .bgpsec
  · rw [if_pos h1] at h; injection h with h h'; exact Or.inl h'.symm
  rw [if_neg h1] at h
  by_cases h2 : c.algorithm ≠ .rsaEncryption
  · rw [if_pos h2] at h; injection h with h h'; exact Or.inl h'.symm
  rw [if_neg h2] at h
  by_cases h3 : subjectPublicKey env.openssl3 c.key = false
  · rw [if_pos h3] at h; injection h with h h'; exact Or.inl h'.symm
  rw [if_neg h3] at h
  by_cases h4 : type = .ta
  · rw [if_pos h4] at h
    unfold TalKey
    cases hd : decodeSpki env.d2i env.tal with
    | none =>
      rw [hd] at h; injection h with h h'; exact Or.inl h'.symm
    | some t =>
      have hd' := (decodeSpki_iff ..).1 hd
      rw [hd] at h
      simp only at h
      by_cases ht : t = c.spki
      · rw [if_pos ht] at h
        injection h with h h'
        exact Or.inr (Or.inl ⟨h4, h'.symm, ht ▸ hd'⟩)
      · rw [if_neg ht] at h
        injection h with h h'
        exact Or.inr (Or.inr ⟨h4, h'.symm, h.symm, t, hd', ht⟩)
  · rw [if_neg h4] at h; injection h with h h'; exact Or.inl h'.symm

/-- **C123 (another key).** If the TAL has another key, and the certificate's one is good, the certificate is rejected and the key marked invalid. -/
theorem C123_other (env : Env) (c : Cert) (hr : Regular c) (ks : KeyState) (hg : GoodKey .ta c) (s : Spki) (ht : TalKey env s) (hne : s ≠ c.spki) :
    validatePublicKey env .ta c ks = some (false, .invalid) := by
  unfold GoodKey at hg
  rw [if_neg (by decide)] at hg
  obtain ⟨ha, hk⟩ := hg
  have hk' : subjectPublicKey env.openssl3 c.key = true := (rsa_iff env hr ha).2 hk
  rw [validatePublicKey_eq, (decodeSpki_iff ..).2 ht]
  simp [ha, hk', hne]

theorem validatePublicKey_ne_none (env : Env) (type : Ext.CertType) (c : Cert) (ks : KeyState) : validatePublicKey env type c ks ≠ none := by
  rw [validatePublicKey_eq]; simp

theorem validatePublicKey_iff (env : Env) (type : Ext.CertType) (c : Cert) (hr : Regular c) (ks : KeyState) : (∃ ks', validatePublicKey env type c ks = some (true, ks')) ↔
    GoodKey type c ∧ (type = .ta → TalKey env c.spki ∧ c.selfSignature = 1) := by
  by_cases ht : type = .ta
  · subst ht
    simp only [C123 env c hr, forall_const]
    constructor
    · rintro ⟨_, h1, h2, h3, -⟩; exact ⟨h1, h2, h3⟩
    · rintro ⟨h1, h2, h3⟩; exact ⟨_, h1, h2, h3, rfl⟩
  · rw [validatePublicKey_eq]
    unfold GoodKey
    simp only [ht, if_false, false_implies, and_true]
    by_cases hb : type = .bgpsec
    · simp only [hb, if_true, Option.some.injEq, Prod.mk.injEq, C124_bgpsec]
      constructor
      · rintro ⟨_, h, -⟩; exact h
      · intro h; exact ⟨ks, h, rfl⟩
    · simp only [hb, if_false]
      by_cases ha : c.algorithm = .rsaEncryption
      · have hrsa : subjectPublicKey env.openssl3 c.key = true ↔ _ := rsa_iff env hr ha
        rw [← hrsa]
        cases subjectPublicKey env.openssl3 c.key <;> simp [ha]
      · simp [ha]

/-- **C125.** A certificate passes these checks if and only if it has the profile of RFC 6487; no matter the serial numbers and keys that were seen before. -/
theorem C125 (env : Env) (type : Ext.CertType) (c : Cert) (hr : Regular c) (st : St) : (∃ st', validateRfc6487 env type c st = some (true, st')) ↔ Profile env type c := by
  unfold validateRfc6487
  by_cases h1 : c.version = 2
  · rw [if_neg (by simp [h1])]
    cases hn : c.number with
    | none =>
      simp only [Option.some.injEq, Prod.mk.injEq, Bool.false_eq_true, false_and, exists_false, false_iff]
      intro h; exact h.number hn
    | some number =>
      simp only
      by_cases h2 : c.signature = .sha256WithRSA
      · rw [if_neg (by simp [signatureAlgorithm, h2])]
        have hi := validateIssuer_iff env type c
        cases hv : validateIssuer (decide (type = .ta)) env.parent c.issuer with
        | none => exact absurd hv (validateIssuer_ne_none _ _ _)
        | some b =>
          rw [hv] at hi
          cases b with
          | false =>
            simp only [Option.some.injEq, Prod.mk.injEq, Bool.false_eq_true, false_and, exists_false, false_iff]
            intro h; exact absurd (hi.2 h.issuer) (by simp)
          | true =>
            have hiss := hi.1 rfl
            simp only
            by_cases h3 : Readable c.subject
            · rw [if_neg (by simp [validateSubject, (nameDecode_isSome _).2 h3])]
              have hp := validatePublicKey_iff env type c hr st.key
              cases hk : validatePublicKey env type c st.key with
              | none => exact absurd hk (validatePublicKey_ne_none _ _ _ _)
              | some q =>
                obtain ⟨ok, ks⟩ := q
                rw [hk] at hp
                simp only [Option.some.injEq, Prod.mk.injEq] at hp ⊢
                constructor
                · rintro ⟨_, rfl, -⟩
                  obtain ⟨g1, g2⟩ := hp.1 ⟨ks, rfl, rfl⟩
                  exact ⟨h1, by simp [hn], h2, hiss, h3, g1, g2⟩
                · intro h
                  obtain ⟨_, g1, -⟩ := hp.2 ⟨h.key, h.ta⟩
                  exact ⟨_, g1, rfl⟩
            · rw [if_pos (by simpa [validateSubject] using fun h => h3 ((nameDecode_isSome _).1 h))]
              simp only [Option.some.injEq, Prod.mk.injEq, Bool.false_eq_true, false_and, exists_false, false_iff]
              intro h; exact h3 h.subject
      · rw [if_pos (by simp [signatureAlgorithm, h2])]
        simp only [Option.some.injEq, Prod.mk.injEq, Bool.false_eq_true, false_and, exists_false, false_iff]
        intro h; exact h2 h.signature
  · rw [if_pos h1]
    simp only [Option.some.injEq, Prod.mk.injEq, Bool.false_eq_true, false_and, exists_false, false_iff]
    intro h; exact h1 h.version

/-- **C125 (memory).** The checks never read NULL or out of bounds. -/
theorem C125_memory (env : Env) (type : Ext.CertType) (c : Cert) (st : St) : validateRfc6487 env type c st ≠ none := by
  unfold validateRfc6487
  by_cases h1 : c.version = 2
  · rw [if_neg (by simp [h1])]
    cases hn : c.number with
    | none => simp
    | some number =>
      simp only
      by_cases h2 : (!signatureAlgorithm c.signature) = true
      · rw [if_pos h2]; simp
      · rw [if_neg h2]
        cases hv : validateIssuer (decide (type = .ta)) env.parent c.issuer with
        | none => exact absurd hv (validateIssuer_ne_none _ _ _)
        | some b =>
          cases b with
          | false => simp
          | true =>
            simp only
            by_cases h3 : (!validateSubject c.subject) = true
            · rw [if_pos h3]; simp
            · rw [if_neg h3]
              cases hk : validatePublicKey env type c st.key with
              | none => exact absurd hk (validatePublicKey_ne_none _ _ _ _)
              | some q => simp
  · rw [if_pos h1]; simp

/-- A trust anchor that meets the hypotheses, and is accepted. -/
def exEnv : Env := ⟨fun _ => some (⟨[1], [7#8]⟩, 2), [1#8, 2#8], none, true, 0⟩
def exCert : Cert := ⟨2, some 5, .sha256WithRSA, [⟨.commonName, some [65#8]⟩], [⟨.commonName, some [65#8]⟩], ⟨[1], [7#8]⟩, .rsaEncryption, .none, some ⟨.rsa, 2048, 65537⟩, 1⟩
theorem exRegular : Regular exCert := by
  intro k hk
  injection hk with hk
  subst hk
  exact ⟨by unfold Sane; decide, fun _ => rfl⟩
example : validateRfc6487 exEnv .ta exCert ⟨[], .untested, []⟩ = some (true, ⟨[], .valid, []⟩) := by rfl
example : Profile exEnv .ta exCert := (C125 _ _ _ exRegular ⟨[], .untested, []⟩).1 ⟨⟨[], .valid, []⟩, by rfl⟩
example : TalKey exEnv exCert.spki ∧ GoodKey .ta exCert := ⟨rfl, rfl, _, rfl, Or.inl rfl, by decide, rfl⟩
example : validateRfc6487 exEnv .ca exCert ⟨[[]], .valid, []⟩ = some (false, ⟨[[⟨5, 0⟩]], .valid, []⟩) := by rfl

/-! ## C126: serial numbers -/

/-- The serial numbers given, one after the other, to the children of a certificate: the list that's kept, and the warnings. -/
def storeAll : List (Int × Nat) → List Serial → List Serial × List (Int × Nat × Nat)
  | [], top => (top, [])
  | (n, f) :: rest, top =>
    let (stack, w, _) := storeSerial [top] n f
    let (top', ws) := storeAll rest (stack.headD [])
    (top', (w.toList.map fun o => (n, f, o)) ++ ws)

theorem find_iff {top : List Serial} {n : Int} {s : Serial} (h : top.find? (fun s => s.number == n) = some s) : s ∈ top ∧ s.number = n :=
  ⟨List.mem_of_find?_eq_some h, by simpa using List.find?_some h⟩

/-- **C126 (one number).** There's a warning if and only if one of the siblings seen before has the same number, and it mentions the file of that one; otherwise the number and its file are added to those of the
siblings, and only to them. The number is released if and only if it isn't kept. Trust anchors have no siblings. -/
theorem C126_one (top : List Serial) (rest : List (List Serial)) (n : Int) (f : Nat) :
    (storeSerial [] n f = ([], none, .freed)) ∧
    (∀ s stack fate, storeSerial (top :: rest) n f = (stack, some s, fate) → fate = .freed ∧ stack = top :: rest ∧ ⟨n, s⟩ ∈ top) ∧
    ((∃ s stack fate, storeSerial (top :: rest) n f = (stack, some s, fate)) ↔ ∃ x ∈ top, x.number = n) ∧
    ((∀ x ∈ top, x.number ≠ n) → storeSerial (top :: rest) n f = ((top ++ [⟨n, f⟩]) :: rest, none, .stored)) := by
  refine ⟨rfl, ?_, ?_, ?_⟩
  · intro s stack fate h
    unfold storeSerial at h
    simp only at h
    cases hf : top.find? (fun s => s.number == n) with
    | none => rw [hf] at h; simp at h
    | some x =>
      rw [hf] at h
      obtain ⟨h1, h2⟩ := find_iff hf
      injection h with h h3
      injection h3 with h3 h4
      injection h3 with h3
      refine ⟨h4.symm, h.symm, ?_⟩
      rw [← h2, ← h3]; exact h1
  · unfold storeSerial
    simp only
    cases hf : top.find? (fun s => s.number == n) with
    | none =>
      rw [List.find?_eq_none] at hf
      constructor
      · rintro ⟨s, stack, fate, h⟩; simp at h
      · rintro ⟨x, hx, hxn⟩; exact absurd (by simpa using hxn) (hf x hx)
    | some x =>
      obtain ⟨h1, h2⟩ := find_iff hf
      exact ⟨fun _ => ⟨x, h1, h2⟩, fun _ => ⟨_, _, _, rfl⟩⟩
  · intro h
    unfold storeSerial
    simp only
    have : top.find? (fun s => s.number == n) = none := by
      rw [List.find?_eq_none]; intro x hx; simpa using h x hx
    rw [this]

theorem storeAll_aux : ∀ (l : List (Int × Nat)) (top : List Serial), (top.map (·.number)).Nodup →
    ((storeAll l top).1.map (·.number)).Nodup ∧ (∀ x, x ∈ (storeAll l top).1.map (·.number) ↔ x ∈ top.map (·.number) ∨ x ∈ l.map (·.1)) ∧
    ((storeAll l top).2.length + (storeAll l top).1.length = l.length + top.length)
  | [], top, h => by simp [storeAll, h]
  | (n, f) :: rest, top, h => by
    unfold storeAll storeSerial
    simp only
    cases hf : top.find? (fun s => s.number == n) with
    | some x =>
      obtain ⟨h1, h2⟩ := find_iff hf
      obtain ⟨g1, g2, g3⟩ := storeAll_aux rest top h
      simp only [List.headD_cons, Option.toList_some, List.map_cons, List.map_nil, List.cons_append, List.nil_append, List.length_cons]
      refine ⟨g1, fun y => ?_, by omega⟩
      rw [g2 y]
      simp only [List.mem_cons]
      constructor
      · rintro (h | h)
        · exact Or.inl h
        · exact Or.inr (Or.inr h)
      · rintro (h | rfl | h)
        · exact Or.inl h
        · exact Or.inl (List.mem_map.2 ⟨x, h1, h2⟩)
        · exact Or.inr h
    | none =>
      rw [List.find?_eq_none] at hf
      have hnd : ((top ++ [(⟨n, f⟩ : Serial)]).map (fun s => s.number)).Nodup := by
        rw [List.map_append, List.nodup_append]
        refine ⟨h, by simp, ?_⟩
        intro a ha b hb hab
        simp only [List.map_cons, List.map_nil, List.mem_singleton] at hb
        obtain ⟨x, hx, hxa⟩ := List.mem_map.1 ha
        exact hf x hx (by simp [hxa, hab, hb])
      obtain ⟨g1, g2, g3⟩ := storeAll_aux rest _ hnd
      simp only [List.headD_cons, Option.toList_none, List.map_nil, List.nil_append, List.length_cons]
      refine ⟨g1, fun y => ?_, by rw [List.length_append] at g3; simp only [List.length_cons, List.length_nil] at g3; omega⟩
      rw [g2 y]
      simp [or_assoc]

/-- **C126 (all the children).** Whatever the serial numbers of the children of a certificate, and their order: each number is kept once, and there's a warning for each one of the others. -/
theorem C126 (children : List (Int × Nat)) :
    ((storeAll children []).1.map (·.number)).Nodup ∧ (∀ n, n ∈ (storeAll children []).1.map (·.number) ↔ n ∈ children.map (·.1)) ∧
      (storeAll children []).2.length = children.length - (storeAll children []).1.length := by
  obtain ⟨h1, h2, h3⟩ := storeAll_aux children [] (by simp)
  refine ⟨h1, fun n => by simpa using h2 n, ?_⟩
  simp only [List.length_nil, Nat.add_zero] at h3
  omega

example : storeAll [(5, 0), (6, 1), (5, 2), (5, 3)] [] = ([⟨5, 0⟩, ⟨6, 1⟩], [(5, 2, 0), (5, 3, 0)]) := rfl

/-! ## C127: CRLs -/

theorem revokedLoop_iff : ∀ l : List Revoked, revokedLoop l = true ↔ ∀ r ∈ l, r.serial = true ∧ r.date = true ∧ r.extensions = false
  | [] => by simp [revokedLoop]
  | r :: rs => by
    unfold revokedLoop
    rw [List.forall_mem_cons, ← revokedLoop_iff rs]
    cases r.serial <;> cases r.date <;> cases r.extensions <;> simp

open Verif.Ext in
theorem crl_table (env : Ext.Env) (exts : List (Ext.Ext Ext.Val)) : (∃ s, handleExtensions (crlTable env) exts St.init = .ok s) ↔
    Shape exts [.aki, crlNumber] [] ∧ AkiParent env exts ∧ ∃ v, Has exts crlNumber v := by
  have hn : ((crlTable env).map (·.nid)).Nodup := by simp [crlTable, crlNumber]
  have hsh : Shape exts [.aki, crlNumber] [] ↔ _ := shape_iff (t := crlTable env) (by intro n; simp [crlTable, eq_comm]) (by simp [crlTable]) (by simp) exts
  constructor
  · rintro ⟨s, hok⟩
    obtain ⟨i1, i2, i3, i4, i5⟩ := (C61_table _ hn exts _ s).1 hok
    refine ⟨hsh.2 ⟨i1, i2, i3⟩, aki_row hn (by simp [crlTable]) hok, ?_⟩
    obtain ⟨v, _, _, hv, -⟩ := row_pure hn (n := crlNumber) (cb := fun _ s => .ok s) (crit := false) (by simp [crlTable]) hok
    exact ⟨v, hv⟩
  · rintro ⟨h1, h2, v, h3⟩
    obtain ⟨i1, i2, i3⟩ := hsh.1 h1
    have hruns : ∃ s', Runs (crlTable env) exts St.init s' := by
      apply runs_exists
      intro e he h hh hne cb hcb
      simp only [crlTable, List.mem_cons, List.not_mem_nil, or_false] at hh
      rcases hh with rfl | rfl
      · injection hcb with hcb
        subst hcb
        exact aki_accept (h1.1 _ (by simp)) h2 he hne.symm
      · injection hcb with hcb
        subst hcb
        exact ⟨v, has_value (h1.1 _ (by simp)) h3 he hne.symm, fun s => ⟨s, rfl⟩⟩
    obtain ⟨s', hr⟩ := hruns
    refine ⟨s', (C61_table _ hn exts _ s').2 ⟨i1, i2, i3, ?_, hr⟩⟩
    intro h hh _
    simp only [crlTable, List.mem_cons, List.not_mem_nil, or_false] at hh
    rcases hh with rfl | rfl
    · obtain ⟨_, _, h, -⟩ := h2
      exact has_exists h
    · exact has_exists h3

/-- **C127.** A CRL is accepted if and only if it has the profile: version 2, RSA with SHA-256, the issuer is the parent, the entries have serial number and date and no extensions, and the extensions are the
parent's key identifier and the CRL number (once each); if there are others, they aren't critical. -/
theorem C127 (env : Ext.Env) (parent : Option (List Attr)) (c : Crl) : crlValidate env parent c = some true ↔ CrlProfile env parent c := by
  unfold crlValidate
  by_cases h1 : c.version = 1
  · rw [if_neg (by simp [h1])]
    by_cases h2 : c.signature = .sha256WithRSA
    · rw [if_neg (by simp [signatureAlgorithm, h2])]
      have hi := validateIssuerName_iff parent c.issuer
      cases hv : validateIssuerName parent c.issuer with
      | none => exact absurd hv (validateIssuerName_ne_none _ _)
      | some b =>
        rw [hv] at hi
        cases b with
        | false =>
          simp only [Option.some.injEq, Bool.false_eq_true, false_iff]
          intro h; exact absurd (hi.2 h.issuer) (by simp)
        | true =>
          have hiss := hi.1 rfl
          simp only
          have hrev : validateRevoked c.revoked = true ↔ ∀ l, c.revoked = some l → ∀ r ∈ l, r.serial = true ∧ r.date = true ∧ r.extensions = false := by
            unfold validateRevoked
            cases c.revoked with
            | none => simp
            | some l => simp [revokedLoop_iff]
          by_cases h3 : validateRevoked c.revoked = true
          · rw [if_neg (by simp [h3])]
            have ht := crl_table env c.extensions
            cases he : Ext.handleExtensions (crlTable env) c.extensions Ext.St.init with
            | ok s =>
              obtain ⟨g1, g2, g3⟩ := ht.1 ⟨s, he⟩
              simp only [true_iff]
              exact ⟨h1, h2, hiss, hrev.1 h3, g1, g2, g3⟩
            | fail e =>
              simp only [Option.some.injEq, Bool.false_eq_true, false_iff]
              intro h
              obtain ⟨s, hs⟩ := ht.2 ⟨h.shape, h.aki, h.number⟩
              rw [hs] at he; cases he
            | ub =>
              simp only [reduceCtorEq, false_iff]
              intro h
              obtain ⟨s, hs⟩ := ht.2 ⟨h.shape, h.aki, h.number⟩
              rw [hs] at he; cases he
          · rw [if_pos (by simpa using h3)]
            simp only [Option.some.injEq, Bool.false_eq_true, false_iff]
            intro h; exact h3 (hrev.2 h.revoked)
    · rw [if_pos (by simp [signatureAlgorithm, h2])]
      simp only [Option.some.injEq, Bool.false_eq_true, false_iff]
      intro h; exact h2 h.signature
  · rw [if_pos h1]
    simp only [Option.some.injEq, Bool.false_eq_true, false_iff]
    intro h; exact h1 h.version

/-- **C127 (memory).** With the values libcrypto gives, the checks never touch memory they shouldn't. -/
theorem C127_memory (env : Ext.Env) (parent : Option (List Attr)) (c : Crl) (hw : ∀ e ∈ c.extensions, Ext.WellTyped e) : crlValidate env parent c ≠ none := by
  unfold crlValidate
  have hub : Ext.handleExtensions (crlTable env) c.extensions Ext.St.init ≠ .ub := by
    apply Ext.handleExtensions_not_ub
    intro e he h hh hne cb v hcb hv s
    simp only [crlTable, List.mem_cons, List.not_mem_nil, or_false] at hh
    rcases hh with rfl | rfl
    · injection hcb with hcb
      subst hcb
      have := hw e he
      unfold Ext.WellTyped at this
      rw [hv] at this
      simp only at hne this
      rw [← hne] at this
      simp only at this
      obtain ⟨k, i, n, rfl⟩ := this
      unfold Ext.handleAki
      cases k with
      | none => simp
      | some k =>
        simp only
        cases i <;> cases n <;> simp only [Bool.false_eq_true, if_true, if_false] <;> try (intro h; cases h)
        cases env.parent with
        | none => simp
        | some spk =>
          simp only
          cases Ext.validatePublicKeyHash env spk k <;> simp
    · injection hcb with hcb
      subst hcb
      intro h; cases h
  by_cases h1 : c.version = 1
  · rw [if_neg (by simp [h1])]
    by_cases h2 : (!signatureAlgorithm c.signature) = true
    · rw [if_pos h2]; simp
    · rw [if_neg h2]
      cases hv : validateIssuerName parent c.issuer with
      | none => exact absurd hv (validateIssuerName_ne_none _ _)
      | some b =>
        cases b with
        | false => simp
        | true =>
          simp only
          by_cases h3 : (!validateRevoked c.revoked) = true
          · rw [if_pos h3]; simp
          · rw [if_neg h3]
            cases he : Ext.handleExtensions (crlTable env) c.extensions Ext.St.init with
            | ok s => simp
            | fail e => simp
            | ub => exact absurd he hub
  · rw [if_pos h1]; simp

/-- **C127 (loading).** The CRL of a file is handed over if and only if it has the profile; otherwise it's released. -/
theorem C127_load (env : Ext.Env) (parent : Option (List Attr)) (file : Option Crl) (hw : ∀ c, file = some c → ∀ e ∈ c.extensions, Ext.WellTyped e) :
    ∃ r, crlLoad env parent file = some r ∧ (∀ c, r.1 = some c ↔ file = some c ∧ CrlProfile env parent c) ∧ r.2 = r.1.toList.length := by
  unfold crlLoad
  cases file with
  | none => exact ⟨_, rfl, by simp, rfl⟩
  | some c =>
    simp only
    have h := C127 env parent c
    cases hv : crlValidate env parent c with
    | none => exact absurd hv (C127_memory env parent c (hw c rfl))
    | some b =>
      rw [hv] at h
      cases b with
      | false =>
        refine ⟨_, rfl, ?_, rfl⟩
        intro d
        simp only [reduceCtorEq, Option.some.injEq, false_iff]
        rintro ⟨rfl, hp⟩
        exact absurd (h.2 hp) (by simp)
      | true =>
        refine ⟨_, rfl, ?_, rfl⟩
        intro d
        simp only [Option.some.injEq]
        constructor
        · rintro rfl; exact ⟨rfl, h.1 rfl⟩
        · exact fun h => h.1

/-- A CRL that's accepted. -/
def exCrlEnv : Ext.Env := { repo := [], tal := [], sha1 := fun _ => some [9#8], spk := some [1#8], parent := some (some [2#8]) }
def exCrl : Crl := ⟨1, .sha256WithRSA, [⟨.commonName, some [65#8]⟩], some [⟨true, true, false⟩],
  [⟨crlNumber, false, some (.ku [1#8])⟩, ⟨.aki, false, some (.aki (some [9#8]) false false)⟩]⟩
example : crlValidate exCrlEnv (some [⟨.commonName, some [65#8]⟩]) exCrl = some true := rfl
example : crlValidate exCrlEnv (some [⟨.commonName, some [66#8]⟩]) exCrl = some false := rfl
example : crlLoad exCrlEnv none (some exCrl) = some (none, 0) := rfl

/-! ## C128: the chain -/

theorem stale_eq {C : Type} (env : Chain C) (pre : List C) (crl : C) (h1 : env.ctxNew 1 = true) (h2 : env.ctxInit 1 = true) :
    verifyCertCrlStale env (pre ++ [crl]) =
      .done (env.clone && env.pushClone && decide (0 < (env.verify 1 (pre ++ [env.extend crl])).1) && env.pushOriginal)
        (some (if env.pushOriginal then pre ++ [crl] else pre)) 0 0 := by
  unfold verifyCertCrlStale updateCrlTime
  simp only [h1, h2, List.getLast?_concat, List.dropLast_concat]
  cases env.clone <;> cases env.pushClone <;> cases env.pushOriginal <;> simp

/-- **C128 (acceptance).** A certificate's chain is accepted if and only if it's a trust anchor's (there are no CRLs), or libcrypto says it's valid; or it says that the CRL expired, that isn't an error
according to the configuration, and it's valid once the last CRL's date is overlooked. -/
theorem C128 {C : Type} (env : Chain C) (crls : Option (List C)) : (∃ left n m, certificateValidateChain env crls = .done true left n m) ↔
    ∀ l, crls = some l → Verified env l := by
  cases crls with
  | none => simp [certificateValidateChain]
  | some l =>
    simp only [Option.some.injEq, forall_eq']
    unfold certificateValidateChain Verified
    simp only
    cases h1 : env.ctxNew 0 with
    | false => simp
    | true =>
      cases h2 : env.ctxInit 0 with
      | false => simp
      | true =>
        simp only [Bool.not_true, Bool.false_eq_true, if_false, true_and]
        by_cases h3 : (env.verify 0 l).1 ≤ 0
        · rw [if_pos h3]
          have h3' : ¬ 0 < (env.verify 0 l).1 := by omega
          simp only [h3, h3', false_or, true_and]
          by_cases h4 : (env.verify 0 l).2 = crlHasExpired
          · rw [if_pos (by rw [h4]; decide), if_neg (by simp [h4])]
            simp only [h4, true_and]
            rcases List.eq_nil_or_concat l with rfl | ⟨pre, crl, hl⟩
            · simp
            · rw [List.concat_eq_append] at hl
              subst hl
              rw [if_neg (by simp)]
              by_cases h5 : env.stale = .error
              · rw [if_pos h5]; simp [h5]
              · rw [if_neg h5]
                cases h6 : env.ctxNew 1 with
                | false => simp [verifyCertCrlStale, h6]
                | true =>
                  cases h7 : env.ctxInit 1 with
                  | false => simp [verifyCertCrlStale, h6, h7]
                  | true =>
                    rw [stale_eq env pre crl h6 h7]
                    have hex : (∃ p c, pre ++ [crl] = p ++ [c] ∧ 0 < (env.verify 1 (p ++ [env.extend c])).1) ↔ 0 < (env.verify 1 (pre ++ [env.extend crl])).1 := by
                      constructor
                      · rintro ⟨p, c, h, h'⟩
                        obtain ⟨ha, hb⟩ := List.append_inj' h rfl
                        injection hb with hb
                        subst ha hb; exact h'
                      · intro h; exact ⟨_, _, rfl, h⟩
                    rw [hex]
                    cases env.clone <;> cases env.pushClone <;> cases env.pushOriginal <;> simp [h5]
          · by_cases h5 : (env.verify 0 l).2 = 0
            · rw [if_neg (by simp [h5])]; simp [h4]
            · rw [if_pos h5, if_pos h4]; simp [h4]
        · rw [if_neg h3]
          have h3' : 0 < (env.verify 0 l).1 := by omega
          simp [h3']

/-- **C128 (what's left).** However it ends, the contexts and copies made are released, and the CRLs are the ones there were; unless libcrypto can't take one back, and then it's a failure. The program only
stops if the CRL of an empty stack expired. -/
theorem C128_left {C : Type} (env : Chain C) (crls : Option (List C)) :
    (certificateValidateChain env crls = .crit → crls = some [] ∧ (env.verify 0 []).2 = crlHasExpired) ∧
    (∀ ok left n m, certificateValidateChain env crls = .done ok left n m → n = 0 ∧ m = 0 ∧ (left = crls ∨ ok = false ∧ env.pushOriginal = false)) := by
  cases crls with
  | none =>
    refine ⟨(fun h => by cases h), ?_⟩
    intro ok left n m h
    injection h with h1 h2 h3 h4
    subst h1 h2 h3 h4
    exact ⟨rfl, rfl, Or.inl rfl⟩
  | some l =>
    unfold certificateValidateChain
    simp only
    cases h1 : env.ctxNew 0 with
    | false => refine ⟨(fun h => by cases h), ?_⟩; rintro _ _ _ _ ⟨⟩; exact ⟨rfl, rfl, Or.inl rfl⟩
    | true =>
      cases h2 : env.ctxInit 0 with
      | false => refine ⟨(fun h => by cases h), ?_⟩; rintro _ _ _ _ ⟨⟩; exact ⟨rfl, rfl, Or.inl rfl⟩
      | true =>
        simp only [Bool.not_true, Bool.false_eq_true, if_false]
        by_cases h3 : (env.verify 0 l).1 ≤ 0
        · rw [if_pos h3]
          by_cases h4 : (env.verify 0 l).2 = crlHasExpired
          · rw [if_pos (by rw [h4]; decide), if_neg (by simp [h4])]
            rcases List.eq_nil_or_concat l with rfl | ⟨pre, crl, hl⟩
            · simp [h4]
            · rw [List.concat_eq_append] at hl
              subst hl
              rw [if_neg (by simp)]
              by_cases h5 : env.stale = .error
              · rw [if_pos h5]; refine ⟨(fun h => by cases h), ?_⟩; rintro _ _ _ _ ⟨⟩; exact ⟨rfl, rfl, Or.inl rfl⟩
              · rw [if_neg h5]
                cases h6 : env.ctxNew 1 with
                | false => simp only [verifyCertCrlStale, h6, Bool.not_false, if_true]; refine ⟨(fun h => by cases h), ?_⟩; rintro _ _ _ _ ⟨⟩; exact ⟨rfl, rfl, Or.inl rfl⟩
                | true =>
                  cases h7 : env.ctxInit 1 with
                  | false => simp only [verifyCertCrlStale, h6, h7, Bool.not_false, Bool.not_true, Bool.false_eq_true, if_true, if_false]; refine ⟨(fun h => by cases h), ?_⟩; rintro _ _ _ _ ⟨⟩; exact ⟨rfl, rfl, Or.inl rfl⟩
                  | true =>
                    rw [stale_eq env pre crl h6 h7]
                    refine ⟨(fun h => by cases h), ?_⟩
                    intro ok left n m h
                    injection h with g1 g2 g3 g4
                    subst g1 g2 g3 g4
                    refine ⟨rfl, rfl, ?_⟩
                    cases env.pushOriginal <;> simp
          · by_cases h5 : (env.verify 0 l).2 = 0
            · rw [if_neg (by simp [h5])]; refine ⟨(fun h => by cases h), ?_⟩; rintro _ _ _ _ ⟨⟩; exact ⟨rfl, rfl, Or.inl rfl⟩
            · rw [if_pos h5, if_pos h4]; refine ⟨(fun h => by cases h), ?_⟩; rintro _ _ _ _ ⟨⟩; exact ⟨rfl, rfl, Or.inl rfl⟩
        · rw [if_neg h3]; refine ⟨(fun h => by cases h), ?_⟩; rintro _ _ _ _ ⟨⟩; exact ⟨rfl, rfl, Or.inl rfl⟩

/-- An expired CRL that's tolerated. -/
def exChain : Chain Nat := ⟨fun _ => true, fun _ => true, fun i _ => if i = 0 then (0, 12) else (1, 0), true, fun n => n + 100, true, true, .warn⟩
example : certificateValidateChain exChain (some [1, 2]) = .done true (some [1, 2]) 0 0 := rfl
example : certificateValidateChain { exChain with stale := .error } (some [1, 2]) = .done false (some [1, 2]) 0 0 := rfl
example : certificateValidateChain { exChain with pushOriginal := false } (some [1, 2]) = .done false (some [1]) 0 0 := rfl

end Verif.Cert
