import Verif.Cms.BerLemmas
/-
C84: which bytes a signed object's signature is about.
-/
namespace Verif.Cms
open Verif.Res (Byte be)

theorem enc_attrs {attrs : List Byte} (h : Enc .one (0xA0 :: attrs)) :
    Definite attrs ∨ ∃ items, Enc .seq items ∧ attrs = 0x80 :: (items ++ [0, 0]) := by
  generalize hx : (0xA0 : Byte) :: attrs = x at h
  generalize hk : Kind.one = k at h
  cases h with
  | defn t l v ht hl =>
    have := elem_single (lv := l ++ v) (tag := 0xA0) ht (by rw [← List.append_assoc, ← hx]; rfl) (by decide)
    subst this
    simp only [List.cons_append, List.nil_append, List.cons.injEq, true_and] at hx
    exact .inl ⟨l, v, hx, hl⟩
  | indef t items ht hc hi =>
    have := elem_single (lv := [0x80] ++ items ++ [0, 0]) (tag := 0xA0) ht (by
      rw [← List.append_assoc, ← List.append_assoc, ← hx]; rfl) (by decide)
    subst this
    simp only [List.cons_append, List.nil_append, List.cons.injEq, true_and] at hx
    exact .inr ⟨items, hi, hx⟩
  | nil => cases hk
  | cons => cases hk

theorem findSignedAttrs_layout {buf attrs : List Byte} (h : Layout buf attrs) :
    ∃ rest, buf.length < 2 ^ 31 ∧ attrs.length ≤ buf.length ∧ (findSignedAttrs buf = match berFetchLength true (attrs ++ rest) with
      | .defn ll v => some (attrs ++ rest, v + ll)
      | .indef => some (attrs ++ rest, 0)
      | .more => none
      | .bad => none) := by
  obtain ⟨l1, version, digestAlgs, encap, certs, l2, l3, siVersion, sid, digestAlg, rest, hb, h1, h2, h3, h4, h5, h6, h7, h8, h9, h10,
    h11, h12⟩ := h
  refine ⟨rest, h12, by rw [hb]; simp only [List.length_cons, List.length_append]; omega, ?_⟩
  have hlen := h12
  rw [hb] at hlen
  simp only [List.length_cons, List.length_append] at hlen
  unfold findSignedAttrs
  rw [hb, skipTL_spec h1]
  simp only [Option.bind_eq_bind, Option.bind_some]
  rw [skipTLV_spec h2 (by omega) (by decide)]
  simp only [Option.bind_some]
  rw [skipTLV_spec h3 (by omega) (by decide)]
  simp only [Option.bind_some]
  rw [skipTLV_spec h4 (by omega) (by decide)]
  simp only [Option.bind_some]
  rw [skipTLV_spec h5 (by omega) (by decide)]
  simp only [Option.bind_some]
  rw [skipTL_spec h6]
  simp only [Option.bind_some]
  rw [skipTL_spec h7]
  simp only [Option.bind_some]
  rw [skipTLV_spec h8 (by omega) (by decide)]
  simp only [Option.bind_some]
  rw [skipTLV_spec h9 (by omega) (by decide)]
  simp only [Option.bind_some]
  rw [skipTLV_spec h10 (by omega) (by decide)]
  simp only [Option.bind_some]
  rw [skipT_cons]
  simp only [Option.bind_some]
  rfl

/-- **C84, definite lengths.** Whatever else the object has: if the attributes have a definite length, then the signature that is
verified is one of RFC 5652's: of the tag of SET OF, followed by the length and value of the attributes. Nothing outside of
the object is read. -/
theorem C84_partial {buf attrs : List Byte} (h : Layout buf attrs) (hd : Definite attrs) : signedBytes buf = .bytes (0x31 :: attrs) := by
  obtain ⟨rest, hlen, hle, he⟩ := findSignedAttrs_layout h
  obtain ⟨l, v, rfl, hl⟩ := hd
  rw [List.append_assoc, fetch_isLen hl (by simp only [List.length_append] at hle; omega)] at he
  unfold signedBytes
  rw [he]
  simp only [List.length_append]
  rw [if_neg (by omega)]
  have e : l ++ (v ++ rest) ++ [0] = (l ++ v) ++ (rest ++ [0]) := by simp
  rw [e, List.take_left' (by simp; omega)]

/-- **C84, indefinite lengths.** If the attributes have an indefinite length, then they are not signed: the signature that is
verified is that of the single octet 0x31, whatever the attributes are. -/
theorem C84_indefinite {buf attrs : List Byte} (h : Layout buf attrs) (hd : ¬ Definite attrs) : signedBytes buf = .bytes [0x31] := by
  obtain ⟨rest, hlen, hle, he⟩ := findSignedAttrs_layout h
  have henc : Enc .one (0xA0 :: attrs) := by
    obtain ⟨_, _, _, _, _, _, _, _, _, _, _, _, _, _, _, _, _, _, _, _, _, _, h11, _⟩ := h; exact h11
  rcases enc_attrs henc with hdef | ⟨items, -, rfl⟩
  · exact absurd hdef hd
  · rw [List.cons_append, fetch_indef] at he
    unfold signedBytes
    rw [he]
    simp

/-- No encoding is of both kinds. -/
theorem not_definite (items : List Byte) : ¬ Definite (0x80 :: items) := by
  rintro ⟨l, v, e, ⟨b, rfl, hb, hlt⟩ | ⟨k, bs, rfl, hk, hbs, -, -⟩⟩
  · simp only [List.cons_append, List.cons.injEq] at e
    obtain ⟨rfl, -⟩ := e
    rw [show (0x80 : Byte).toNat = 128 from rfl] at hb
    omega
  · simp only [List.cons_append, List.cons.injEq] at e
    obtain ⟨rfl, -⟩ := e
    have : 0 < bs.length := List.length_pos_iff.2 hbs
    rw [show (0x80 : Byte).toNat = 128 from rfl] at hk
    omega

namespace Ex

theorem tag1 (b : Byte) (h : b.toNat % 32 ≠ 31) : IsTag [b] := .inl ⟨b, rfl, h⟩

theorem elem_short (t : Byte) (v : List Byte) (ht : t.toNat % 32 ≠ 31) (hv : v.length < 128) : Elem t (t :: BitVec.ofNat 8 v.length :: v) := by
  refine ⟨?_, rfl⟩
  have := Enc.defn [t] [BitVec.ofNat 8 v.length] v (tag1 t ht) (.inl ⟨_, rfl, by simp; omega, hv⟩)
  simpa using this

/-- An object, with these attributes (tag excluded). Certificates and the like are stand-ins. -/
def object (attrs : List Byte) : List Byte :=
  [0x30, 0x80, 0x02, 1, 3, 0x31, 2, 5, 5, 0x30, 1, 7, 0xA0, 0x02, 9, 9, 0x31, 0x80, 0x30, 0x80, 0x02, 1, 3, 0x80, 2, 0xAA, 0xBB, 0x30, 1, 8,
   0xA0] ++ attrs ++ [4, 1, 1, 0, 0, 0, 0, 0, 0]

theorem layout (attrs : List Byte) (h : Enc .one (0xA0 :: attrs)) (hlen : attrs.length < 1000) : Layout (object attrs) attrs := by
  refine ⟨[0x80], [0x02, 1, 3], [0x31, 2, 5, 5], [0x30, 1, 7], [0xA0, 2, 9, 9], [0x80], [0x80], [0x02, 1, 3], [0x80, 2, 0xAA, 0xBB],
    [0x30, 1, 8], [4, 1, 1, 0, 0, 0, 0, 0, 0], by simp [object], .inr rfl, elem_short 0x02 [3] (by decide) (by decide),
    elem_short 0x31 [5, 5] (by decide) (by decide), elem_short 0x30 [7] (by decide) (by decide),
    elem_short 0xA0 [9, 9] (by decide) (by decide), .inr rfl, .inr rfl, elem_short 0x02 [3] (by decide) (by decide),
    elem_short 0x80 [0xAA, 0xBB] (by decide) (by decide), elem_short 0x30 [8] (by decide) (by decide), h, ?_⟩
  simp only [object, List.length_append, List.length_cons, List.length_nil]
  omega

theorem enc_def : Enc .one [0xA0, 4, 0x30, 2, 1, 1] := (elem_short 0xA0 [0x30, 2, 1, 1] (by decide) (by decide)).1

theorem enc_indef : Enc .one [0xA0, 0x80, 0x30, 2, 1, 1, 0, 0] :=
  Enc.indef [0xA0] [0x30, 2, 1, 1] (tag1 _ (by decide)) ⟨_, _, rfl, by decide⟩
    (Enc.cons [0x30, 2, 1, 1] [] (elem_short 0x30 [1, 1] (by decide) (by decide)).1 (by decide) .nil)

end Ex

/-- **C84 does not hold.** An object whose attributes have an indefinite length: the signature is that of one octet. -/
theorem C84_refuted : ∃ buf attrs : List Byte, Layout buf attrs ∧ 2 < attrs.length ∧ signedBytes buf = .bytes [0x31] :=
  ⟨Ex.object [0x80, 0x30, 2, 1, 1, 0, 0], _, Ex.layout _ Ex.enc_indef (by decide), by decide,
    C84_indefinite (Ex.layout _ Ex.enc_indef (by decide)) (not_definite _)⟩

/-- The hypotheses are met: an object with lengths of several kinds. -/
example : signedBytes (Ex.object [4, 0x30, 2, 1, 1]) = .bytes [0x31, 4, 0x30, 2, 1, 1] :=
  C84_partial (Ex.layout _ Ex.enc_def (by decide)) ⟨[4], [0x30, 2, 1, 1], rfl, .inl ⟨_, rfl, by decide, by decide⟩⟩

/-- **C84, what the decoder is needed for.** If it was not for the decoder, which checked the lengths before, the code would read after
the end of the buffer. -/
theorem C84_decoder_needed : ∃ buf, signedBytes buf = .crash := ⟨Ex.object [0x7F], by decide +kernel⟩

/-- **C84, always.** For any bytes: skipping elements ends, and never goes beyond the end. -/
theorem C84_total (s : List Byte) (tag : Byte) :
    (∀ s', skipTLV s tag = some s' → s' <:+ s ∧ s'.length + 2 ≤ s.length) ∧
    ∀ c s', skipT s tag = some s' → berSkipLength (2 * s'.length + 1) c s' ≠ .stuck := by
  constructor
  · intro s' h
    unfold skipTLV at h
    simp only at h
    split at h
    · cases h
    · rename_i s1 h1
      unfold skipT at h1
      split at h1
      · cases h1
      · split at h1
        · cases h1
        · cases h1
          split at h
          · rename_i n hn
            cases h
            have := ((skip_total _).1 _ _).1 n hn
            refine ⟨(List.drop_suffix _ _).trans (List.suffix_cons _ _), ?_⟩
            simp only [List.length_drop, List.length_cons]
            omega
          · cases h
  · intro c s' _
    exact ((skip_total _).1 c s').2 (Nat.le_refl _)

end Verif.Cms
