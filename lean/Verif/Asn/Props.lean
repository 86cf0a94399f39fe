import Verif.Asn.TypeLemmas
import Verif.Asn.CompleteAll
import Verif.Asn.ValEq
/-
C169-C175: the ASN.1 decoder.
-/
namespace Verif.Asn
open Verif.Res (Byte be)

theorem roots_implicit {p : Ty × Con} : ¬ (p.1.tags = [] ∧ Mode.none = Mode.implicit) := by rintro ⟨-, h⟩; cases h

theorem asn1Decode_ok {nul : Nul} {ty : Ty} {con : Con} {s : List Byte} {v : Val} (h : asn1Decode nul ty con s = .ok v) :
    (∃ n, berDecode ty s = .ok v n) ∧ check nul con v = .pass := by
  unfold asn1Decode at h
  cases h1 : berDecode ty s with
  | ok w n =>
    rw [h1] at h
    simp only at h
    cases h2 : check nul con w with
    | pass => rw [h2] at h; cases h; exact ⟨⟨n, rfl⟩, h2⟩
    | _ => rw [h2] at h; cases h
  | _ => rw [h1] at h; cases h

theorem asn1Decode_of {nul : Nul} {ty : Ty} {con : Con} {s : List Byte} {v : Val} (h : ∃ n, berDecode ty s = .ok v n)
    (hc : check nul con v = .pass) : asn1Decode nul ty con s = .ok v := by
  obtain ⟨n, h⟩ := h
  unfold asn1Decode
  rw [h]
  simp only [hc]

theorem asn1Decode_ber {p : Ty × Con} (hp : p ∈ roots) {nul : Nul} {s : List Byte} {v : Val} (h : asn1Decode nul p.1 p.2 s = .ok v) :
    ∃ b rest, s = b ++ rest ∧ Ber p.1 .own v b := by
  obtain ⟨⟨n, hn⟩, -⟩ := asn1Decode_ok h
  obtain ⟨-, -, hb⟩ := dec_sound (roots_ok p hp) hn .own rfl (by simp [Tagging.outer])
  exact ⟨_, _, (List.take_append_drop n s).symm, hb⟩

/-! ### C169: decoding ends -/

/-- False: an AS extension with an element of indefinite length makes the decoder loop for ever. -/
theorem C169_refuted : ¬ ∀ p ∈ roots, ∀ (nul : Nul) (s : List Byte), asn1Decode nul p.1 p.2 s ≠ .hang := by
  intro h
  refine h (asIdentifiersTy, asIdentifiersCon) (by simp [roots]) .never [0x30, 6, 0xA0, 0x80, 5, 0, 0, 1] ?_
  have : berDecode asIdentifiersTy [0x30, 6, 0xA0, 0x80, 5, 0, 0, 1] = .hang := R.eq_hang (by decide +kernel)
  unfold asn1Decode
  rw [this]

/-- True for all types, except the AS numbers of certificates. Missing: these. -/
theorem C169_ends_partial : ∀ p ∈ roots, p.1 ≠ asIdentifiersTy → ∀ (nul : Nul) (s : List Byte), asn1Decode nul p.1 p.2 s ≠ .hang := by
  intro p hp hne nul s
  have hp' : p ∈ roots.dropLast := by
    simp only [roots, List.mem_cons, List.not_mem_nil, or_false] at hp
    simp only [roots, List.dropLast, List.mem_cons, List.not_mem_nil, or_false]
    rcases hp with h | h | h | h | h | h | h | h | h | h
    all_goals first | (simp only [h, true_or, or_true]; done) | exact absurd (congrArg Prod.fst h) hne
  have h := (dec_good true p.1 .none s (roots_ok p hp) roots_implicit (fun _ => roots_calm p hp')).2 rfl
  unfold asn1Decode berDecode
  cases h1 : dec p.1 .none s with
  | hang => exact absurd h1 h
  | ok v n => simp only; cases check nul p.2 v <;> simp
  | _ => simp

/-! ### A ROA, for the examples -/

namespace Ex

theorem dtlv (tag : Nat) (constr : Bool) (c : List Byte) (T : Byte) (h1 : T.toNat / 64 = tag % 4) (h2 : T.toNat / 32 % 2 = 1 ↔ constr = true)
    (h3 : tag / 4 < 31) (h4 : T.toNat % 32 = tag / 4) (hc : c.length < 128) : DTlv tag constr c (T :: BitVec.ofNat 8 c.length :: c) := by
  refine ⟨[T], [BitVec.ofNat 8 c.length], ⟨⟨T, [], rfl, h1, h2, Or.inl ⟨rfl, h3, h4⟩⟩, fun _ => rfl, fun h => absurd h3 (by omega)⟩, Or.inl ⟨_, rfl, ?_, hc⟩, rfl⟩
  rw [BitVec.toNat_ofNat]
  omega

theorem dtlv' (tag : Nat) (constr : Bool) (c : List Byte) (T : Byte) (b : List Byte) (hb : b = T :: BitVec.ofNat 8 c.length :: c)
    (h1 : T.toNat / 64 = tag % 4) (h2 : T.toNat / 32 % 2 = 1 ↔ constr = true)
    (h3 : tag / 4 < 31) (h4 : T.toNat % 32 = tag / 4) (hc : c.length < 128) : DTlv tag constr c b := by
  rw [hb]; exact dtlv tag constr c T h1 h2 h3 h4 hc

/-- 10.0.0.0/8-24 -/
def addr : List Byte := [0x30, 7, 3, 2, 0, 0x0A, 2, 1, 24]
def addrV : Val := .seq [some (.bits [0x0A] 0), some (.bytes [24])]
def block : List Byte := [0x30, 15, 4, 2, 0, 1, 0x30, 9] ++ addr
def blockV : Val := .seq [some (.bytes [0, 1]), some (.list [addrV])]
/-- AS 64496 may originate it. -/
def roa : List Byte := [0x30, 24, 2, 3, 0, 0xFB, 0xF0, 0x30, 17] ++ block
def roaV : Val := .seq [none, some (.bytes [0, 0xFB, 0xF0]), some (.list [blockV])]

theorem addr_der : Der roaipAddressTy .own addrV addr := by
  refine ⟨[3, 2, 0, 0x0A, 2, 1, 24], _, dtlv 64 true _ 0x30 (by decide) (by decide) (by decide) (by decide) (by decide), rfl, ?_⟩
  refine Or.inr ⟨_, _, [3, 2, 0, 0x0A], [2, 1, 24], rfl, rfl, ?_, Or.inr ⟨_, _, [2, 1, 24], [], rfl, rfl, ?_, rfl, rfl⟩⟩
  · exact ⟨[0, 0x0A], dtlv 12 false _ 3 (by decide) (by decide) (by decide) (by decide) (by decide), 0, [0x0A], rfl, by decide, by decide, by decide, rfl⟩
  · exact ⟨[24], dtlv 8 false _ 2 (by decide) (by decide) (by decide) (by decide) (by decide), rfl⟩

theorem block_der : Der roaipAddressFamilyTy .own blockV block := by
  refine ⟨[4, 2, 0, 1, 0x30, 9] ++ addr, _, dtlv' 64 true ([4, 2, 0, 1, 0x30, 9] ++ addr) 0x30 block (by decide) (by decide) (by decide) (by decide) (by decide) (by decide), rfl, ?_⟩
  refine Or.inr ⟨_, _, [4, 2, 0, 1], [0x30, 9] ++ addr, rfl, rfl, ?_, Or.inr ⟨_, _, [0x30, 9] ++ addr, [], rfl, rfl, ?_, rfl, rfl⟩⟩
  · exact ⟨[0, 1], dtlv 16 false _ 4 (by decide) (by decide) (by decide) (by decide) (by decide), rfl⟩
  · refine ⟨[addr], [addrV], ?_, rfl, .cons addr_der .nil⟩
    exact dtlv 64 true addr 0x30 (by decide) (by decide) (by decide) (by decide) (by decide)

theorem roa_der : Der routeOriginAttestationTy .own roaV roa := by
  refine ⟨[2, 3, 0, 0xFB, 0xF0, 0x30, 17] ++ block, _, dtlv' 64 true ([2, 3, 0, 0xFB, 0xF0, 0x30, 17] ++ block) 0x30 roa (by decide) (by decide) (by decide) (by decide) (by decide) (by decide), rfl, ?_⟩
  refine Or.inl ⟨rfl, _, rfl, ?_⟩
  refine Or.inr ⟨_, _, [2, 3, 0, 0xFB, 0xF0], [0x30, 17] ++ block, rfl, rfl, ?_, Or.inr ⟨_, _, [0x30, 17] ++ block, [], rfl, rfl, ?_, rfl, rfl⟩⟩
  · exact ⟨[0, 0xFB, 0xF0], dtlv 8 false _ 2 (by decide) (by decide) (by decide) (by decide) (by decide), rfl⟩
  · refine ⟨[block], [blockV], ?_, rfl, .cons block_der .nil⟩
    exact dtlv 64 true block 0x30 (by decide) (by decide) (by decide) (by decide) (by decide)

theorem roa_decoded (nul : Nul) : asn1Decode nul routeOriginAttestationTy routeOriginAttestationCon roa = .ok roaV :=
  asn1Decode_of (R.eq_ex (by decide +kernel)) rfl

theorem roa_root : (routeOriginAttestationTy, routeOriginAttestationCon) ∈ roots := by simp [roots]
end Ex

example : ∃ p ∈ roots, p.1 ≠ asIdentifiersTy := ⟨_, Ex.roa_root, by simp [routeOriginAttestationTy, asIdentifiersTy]⟩

/-! ### C170: whatever the bytes are, the decoder stays in bounds and does not abort -/

/-- For all objects, however they are encoded. -/
theorem C170_safe : ∀ p ∈ roots, ∀ (nul : Nul) (s : List Byte), asn1Decode nul p.1 p.2 s ≠ .crash ∧ asn1Decode nul p.1 p.2 s ≠ .abort := by
  intro p hp nul s
  have hs := dec_good false p.1 .none s (roots_ok p hp) roots_implicit (by simp)
  unfold asn1Decode berDecode
  cases h1 : dec p.1 .none s with
  | crash => exact absurd h1 hs.1
  | ok v n =>
    obtain ⟨-, -, hb⟩ := dec_sound (roots_ok p hp) h1 .own rfl (by simp [Tagging.outer])
    simp only
    rcases check_ends nul p.2 p.1 v (roots_for p hp) (ber_hasTy _ _ _ _ hb) with h | h <;> rw [h] <;> simp
  | _ => simp

example : asn1Decode .never routeOriginAttestationTy routeOriginAttestationCon (Ex.roa.take 20) = .error := Decoded.eq_error (by decide +kernel)

/-! ### C171: the decoded object is the one that is encoded -/

/-- The bytes begin with a BER encoding of the object. -/
theorem C171_ber : ∀ p ∈ roots, ∀ (nul : Nul) (s : List Byte) (v : Val), asn1Decode nul p.1 p.2 s = .ok v →
    ∃ b rest, s = b ++ rest ∧ Ber p.1 .own v b :=
  fun _ hp _ _ _ h => asn1Decode_ber hp h

example : ∃ b rest, Ex.roa = b ++ rest ∧ Ber routeOriginAttestationTy .own Ex.roaV b :=
  C171_ber _ Ex.roa_root .never Ex.roa _ (Ex.roa_decoded .never)

/-! ### C172: all DER encodings are decoded -/

theorem der_decoded {p : Ty × Con} (hp : p ∈ roots) {v : Val} {b : List Byte} (hd : Der p.1 .own v b) (hl : b.length < 2 ^ 62) (rest : List Byte) :
    berDecode p.1 (b ++ rest) = .ok v b.length :=
  dec_complete_all p.1 (roots_ok p hp) (roots_clear p hp) .own v b rest roots_implicit hd hl

/-- An object that complies with the constraints that are checked is read back from its DER encoding, whatever follows. -/
theorem C172_der : ∀ p ∈ roots, ∀ (nul : Nul) (v : Val) (b rest : List Byte), Der p.1 .own v b → b.length < 2 ^ 62 →
    (asn1Decode nul p.1 p.2 (b ++ rest) = .ok v ↔ check nul p.2 v = .pass) ∧
    (asn1Decode nul p.1 p.2 (b ++ rest) = .error ↔ check nul p.2 v = .fail) := by
  intro p hp nul v b rest hd hl
  unfold asn1Decode
  rw [der_decoded hp hd hl rest]
  simp only
  cases check nul p.2 v <;> simp

/-- DER encodings are unambiguous: two of them are of the same object if one begins with the other. -/
theorem C172_unique : ∀ p ∈ roots, ∀ (v w : Val) (b c x y : List Byte), Der p.1 .own v b → Der p.1 .own w c → b.length < 2 ^ 62 → c.length < 2 ^ 62 →
    b ++ x = c ++ y → v = w ∧ b = c := by
  intro p hp v w b c x y hb hc lb lc e
  have h1 := der_decoded hp hb lb x
  have h2 := der_decoded hp hc lc y
  rw [e, h2] at h1
  simp only [R.ok.injEq] at h1
  exact ⟨h1.1.symm, (List.append_inj_left e h1.2.symm)⟩

example : Der routeOriginAttestationTy .own Ex.roaV Ex.roa ∧ Ex.roa.length < 2 ^ 62 ∧ check .never routeOriginAttestationCon Ex.roaV = .pass :=
  ⟨Ex.roa_der, by decide, (asn1Decode_ok (Ex.roa_decoded .never)).2⟩

/-! ### C173: only DER is accepted -/

theorem der_seq {ms : Mems} {v : Val} {b0 b1 : Byte} {s : List Byte} (h : Der (.seq [64] ms) .own v (b0 :: b1 :: s)) : b1.toNat < 128 ∨ 128 ≤ s.length := by
  obtain ⟨c, vs, h, -, -⟩ := h
  obtain ⟨t, l, ht, hl, e⟩ := h
  have h1 : t.length = 1 := ht.2.1 (by decide)
  obtain ⟨x, rfl⟩ := List.length_eq_one_iff.1 h1
  rcases hl with ⟨y, rfl, hy, hn⟩ | ⟨k, z, zs, rfl, hk, -, -, -, hn⟩
  · simp only [List.cons_append, List.nil_append, List.cons.injEq] at e
    rw [e.2.1]; omega
  · simp only [List.cons_append, List.nil_append, List.cons.injEq] at e
    rw [e.2.2]
    simp only [List.length_cons, List.length_append]
    omega

/-- False. What follows the object is ignored; lengths can be indefinite, or in more octets than needed; and bits after the end of a
prefix can be set. -/
theorem C173_refuted :
    (¬ ∀ (nul : Nul) (s : List Byte) (v : Val), asn1Decode nul routeOriginAttestationTy routeOriginAttestationCon s = .ok v →
      Der routeOriginAttestationTy .own v s) ∧
    ∃ s1 s2 s3 s4 : List Byte, s1 = Ex.roa ++ [7] ∧ s2 = [0x30, 0x80] ++ Ex.roa.drop 2 ++ [0, 0] ∧ s3 = [0x30, 0x81] ++ Ex.roa.drop 1 ∧
      s4 = Ex.roa.take 21 ++ [3, 0x0F] ++ Ex.roa.drop 23 ∧
      (∀ nul, asn1Decode nul routeOriginAttestationTy routeOriginAttestationCon s1 = .ok Ex.roaV) ∧
      (∀ nul, asn1Decode nul routeOriginAttestationTy routeOriginAttestationCon s2 = .ok Ex.roaV) ∧
      (∀ nul, asn1Decode nul routeOriginAttestationTy routeOriginAttestationCon s3 = .ok Ex.roaV) ∧
      (∀ nul, ∃ rest, asn1Decode nul routeOriginAttestationTy routeOriginAttestationCon s4 =
        .ok (.seq [none, some (.bytes [0, 0xFB, 0xF0]), some (.list [.seq [some (.bytes [0, 1]), some (.list [.seq (some (.bits [0x08] 3) :: rest)])]])])) ∧
      ¬ Der routeOriginAttestationTy .own Ex.roaV s1 ∧ ¬ Der routeOriginAttestationTy .own Ex.roaV s2 ∧ ¬ Der routeOriginAttestationTy .own Ex.roaV s3 := by
  have e1 : ∀ nul, asn1Decode nul routeOriginAttestationTy routeOriginAttestationCon (Ex.roa ++ [7]) = .ok Ex.roaV :=
    fun nul => asn1Decode_of (R.eq_ex (by decide +kernel)) rfl
  have n1 : ¬ Der routeOriginAttestationTy .own Ex.roaV (Ex.roa ++ [7]) := by
    intro h
    have := (C172_unique _ Ex.roa_root _ _ _ _ [] [7] h Ex.roa_der (by decide) (by decide) (by simp)).2
    revert this; decide
  refine ⟨fun h => n1 (h .never _ _ (e1 .never)), _, _, _, _, rfl, rfl, rfl, rfl, e1, ?_, ?_, ?_, n1, ?_, ?_⟩
  · exact fun nul => asn1Decode_of (R.eq_ex (by decide +kernel)) rfl
  · exact fun nul => asn1Decode_of (R.eq_ex (by decide +kernel)) rfl
  · exact fun nul => ⟨[some (.bytes [24])], asn1Decode_of (R.eq_ex (by decide +kernel)) rfl⟩
  · intro h
    have := der_seq (v := Ex.roaV) (b0 := 0x30) (b1 := 0x80) (s := Ex.roa.drop 2 ++ [0, 0]) (by unfold routeOriginAttestationTy at h; exact h)
    revert this; decide
  · intro h
    have := der_seq (v := Ex.roaV) (b0 := 0x30) (b1 := 0x81) (s := Ex.roa.drop 1) (by unfold routeOriginAttestationTy at h; exact h)
    revert this; decide

/-- What is accepted begins with a BER encoding, and a DER encoding that begins it is all that is read. Missing: that it is DER. -/
theorem C173_ber_partial : ∀ p ∈ roots, ∀ (nul : Nul) (s : List Byte) (v : Val), asn1Decode nul p.1 p.2 s = .ok v →
    (∃ b rest, s = b ++ rest ∧ Ber p.1 .own v b) ∧
    ∀ (w : Val) (b rest : List Byte), s = b ++ rest → Der p.1 .own w b → b.length < 2 ^ 62 → v = w := by
  intro p hp nul s v h
  refine ⟨asn1Decode_ber hp h, fun w b rest e hd hl => ?_⟩
  obtain ⟨⟨n, hn⟩, -⟩ := asn1Decode_ok h
  rw [e, der_decoded hp hd hl rest] at hn
  cases hn
  rfl

example : asn1Decode .never routeOriginAttestationTy routeOriginAttestationCon ([0x30, 0x80] ++ Ex.roa.drop 2 ++ [0, 0]) = .ok Ex.roaV :=
  Decoded.eq_ok (by decide +kernel)

/-! ### C174: decoded objects are complete -/

/-- Mandatory members are there, one alternative of each CHOICE, and all have the type that the program expects. -/
theorem C174_shape : ∀ p ∈ roots, ∀ (nul : Nul) (s : List Byte) (v : Val), asn1Decode nul p.1 p.2 s = .ok v → HasTy p.1 v := by
  intro p hp nul s v h
  obtain ⟨b, rest, -, hb⟩ := asn1Decode_ber hp h
  exact ber_hasTy _ _ _ _ hb

example : HasTy routeOriginAttestationTy Ex.roaV := C174_shape _ Ex.roa_root .never Ex.roa _ (Ex.roa_decoded .never)

/-! ### C175: accepted objects comply with the constraints of their ASN.1 modules -/

/-- False: the check of a SEQUENCE ends after the first member that has no constraint of its own. A ROA of no prefixes, a ROA whose address
family has one octet, and a manifest that has a negative number and a file name that isn't ASCII are accepted. -/
theorem C175_refuted :
    (∃ v, asn1Decode .never routeOriginAttestationTy routeOriginAttestationCon [0x30, 5, 2, 1, 5, 0x30, 0] = .ok v ∧ ¬ Meets routeOriginAttestationCon v) ∧
    (∃ v, asn1Decode .never routeOriginAttestationTy routeOriginAttestationCon
        [0x30, 12, 2, 1, 5, 0x30, 7, 0x30, 5, 4, 1, 1, 0x30, 0] = .ok v ∧ ¬ Meets routeOriginAttestationCon v) ∧
    (∃ v s, asn1Decode .never manifestTy manifestCon s = .ok v ∧ (∃ w n rest, v = .seq (w :: some (.bytes [n]) :: rest) ∧ 128 ≤ n.toNat) ∧
      (∃ a b c d e hash, v = .seq [a, b, c, d, e, some (.list [.seq [some (.bytes [0x81, 0x2E, 0x6D]), hash]])]) ∧ ¬ Meets manifestCon v) := by
  refine ⟨⟨.seq [none, some (.bytes [5]), some (.list [])], Decoded.eq_ok (by decide +kernel), fun h => ?_⟩,
    ⟨.seq [none, some (.bytes [5]), some (.list [.seq [some (.bytes [1]), some (.list [])]])], Decoded.eq_ok (by decide +kernel), fun h => ?_⟩, ?_⟩
  · exact ((h _ rfl).2.2.1 _ rfl).1 rfl
  · have h1 := ((h _ rfl).2.2.1 _ rfl).2 _ rfl (.seq [some (.bytes [1]), some (.list [])]) (by simp) _ rfl
    have h2 := h1.1 _ rfl _ rfl
    simp at h2
  · let t : List Byte := [0x32, 0x30, 0x32, 0x36, 0x30, 0x31, 0x30, 0x31, 0x30, 0x30, 0x30, 0x30, 0x30, 0x30, 0x5A]
    refine ⟨.seq [some (.bytes [0]), some (.bytes [0x85]), some (.bytes t), some (.bytes t), some (.bytes [0x60, 0x86, 0x48, 1, 0x65, 3, 4, 2, 1]),
        some (.list [.seq [some (.bytes [0x81, 0x2E, 0x6D]), some (.bits [1, 2, 3, 4, 5] 0)]])],
      [0x30, 70, 0xA0, 3, 2, 1, 0, 2, 1, 0x85, 0x18, 15] ++ t ++ [0x18, 15] ++ t ++ [6, 9, 0x60, 0x86, 0x48, 1, 0x65, 3, 4, 2, 1, 0x30, 15, 0x30, 13,
        0x16, 3, 0x81, 0x2E, 0x6D, 3, 6, 0, 1, 2, 3, 4, 5], Decoded.eq_ok (by decide +kernel), ⟨_, _, _, rfl, by decide⟩,
      ⟨_, _, _, _, _, _, rfl⟩, fun h => ?_⟩
    have := (h _ rfl).2.1 _ rfl _ _ _ rfl rfl
    revert this; decide

/-- True for the objects of other types: content infos, object identifiers, message digests, and the two extensions of certificates. Missing:
ROAs, manifests and signed data. -/
theorem C175_full_partial : ∀ p ∈ [(contentInfoTy, contentInfoCon), (contentTypePKCS7Ty, contentTypePKCS7Con), (objectIDENTIFIERTy, objectIDENTIFIERCon),
      (messageDigestTy, messageDigestCon), (ipAddrBlocksExtTy, ipAddrBlocksExtCon), (asIdentifiersTy, asIdentifiersCon)],
    ∀ (nul : Nul) (s : List Byte) (v : Val), asn1Decode nul p.1 p.2 s = .ok v → Meets p.2 v := by
  intro p hp nul s v h
  have hr : p ∈ roots := by
    simp only [List.mem_cons, List.not_mem_nil, or_false] at hp
    simp only [roots, List.mem_cons, List.not_mem_nil, or_false]
    tauto
  have hf : [(contentInfoTy, contentInfoCon), (contentTypePKCS7Ty, contentTypePKCS7Con), (objectIDENTIFIERTy, objectIDENTIFIERCon),
      (messageDigestTy, messageDigestCon), (ipAddrBlocksExtTy, ipAddrBlocksExtCon), (asIdentifiersTy, asIdentifiersCon)].all (fun p => p.2.fullB p.1) = true := by
    decide +kernel
  exact full_meets nul p.2 p.1 v (List.all_eq_true.1 hf p hp) (C174_shape p hr nul s v h) (asn1Decode_ok h).2

example : asn1Decode .never ipAddrBlocksExtTy ipAddrBlocksExtCon [0x30, 12, 0x30, 10, 4, 2, 0, 1, 0x30, 4, 3, 2, 4, 0xA0] =
    .ok (.list [.seq [some (.bytes [0, 1]), some (.alt 1 (.list [.alt 0 (.bits [0xA0] 4)]))]]) := Decoded.eq_ok (by decide +kernel)
example : asn1Decode .never ipAddrBlocksExtTy ipAddrBlocksExtCon [0x30, 11, 0x30, 9, 4, 1, 1, 0x30, 4, 3, 2, 4, 0xA0] = .error :=
  Decoded.eq_error (by decide +kernel)

end Verif.Asn
