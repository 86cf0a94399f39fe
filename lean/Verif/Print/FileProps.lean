import Verif.Print.FileLemmas
/-
C141: what print mode recognises.
-/
namespace Verif.Print
open Verif.Res (Byte be)
open Verif.Cms (IsLen AnyLen)

theorem header_long {file : List Byte} (junk : List Byte) (h : 32 ≤ file.length) : header file junk = file.take 32 := by
  unfold header
  rw [List.take_append_of_le_length (by rw [List.length_take]; omega), List.take_take, Nat.min_self]

theorem header_length {file junk : List Byte} (hj : junk.length = 32) : (header file junk).length = 32 := by
  unfold header
  rw [List.length_take, List.length_append, List.length_take]
  omega

theorem header_prefix {a b junk : List Byte} (h : a.length ≤ 32) : ∃ r, header (a ++ b) junk = a ++ r := by
  unfold header
  rw [List.take_append (l₁ := a), List.take_of_length_le h, List.append_assoc, List.take_append, List.take_of_length_le h]
  exact ⟨_, rfl⟩

/-- Signed objects, certificates (with a version) and CRLs whose first bytes say what they are within the first 32 are recognised, whatever was in
the buffer. -/
theorem C141_partial (file junk : List Byte) (n : Nat) (hn : n ≤ 32) :
    (SignedObjectStart n file → guessFileType .unk file junk = .type .roa) ∧
    (CertificateStart n file → guessFileType .unk file junk = .type .cer) ∧
    (CrlStart n file → guessFileType .unk file junk = .type .crl) := by
  have core : ∀ (l1 l2 : List Byte) (t : Byte) (l3 v : List Byte) (y : Byte) (rest : List Byte), AnyLen l1 → AnyLen l2 → IsLen v.length l3 →
      l1.length + l2.length + l3.length + v.length + 4 ≤ 32 →
      guessFileType .unk (0x30 :: (l1 ++ 0x30 :: (l2 ++ t :: (l3 ++ (v ++ y :: rest))))) junk =
        if y = 0x02 then .type .cer else if y = 0x30 then .type .crl else .type .unk := by
    intro l1 l2 t l3 v y rest h1 h2 h3 hle
    have e : (0x30 :: (l1 ++ 0x30 :: (l2 ++ t :: (l3 ++ (v ++ y :: rest)))) : List Byte) =
        ([0x30] ++ (l1 ++ ([0x30] ++ (l2 ++ ([t] ++ (l3 ++ (v ++ [y]))))))) ++ rest := by simp
    unfold guessFileType
    rw [if_neg (by decide), if_neg (by simp), e]
    obtain ⟨r, hr⟩ := header_prefix (a := [0x30] ++ (l1 ++ ([0x30] ++ (l2 ++ ([t] ++ (l3 ++ (v ++ [y]))))))) (b := rest) (junk := junk)
      (by simp only [List.length_append, List.length_singleton]; omega)
    rw [hr]
    dsimp only
    rw [if_neg (by simp)]
    have e1 : ([0x30] ++ (l1 ++ ([0x30] ++ (l2 ++ ([t] ++ (l3 ++ (v ++ [y])))))) ++ r : List Byte) =
        [0x30] ++ (l1 ++ (0x30 :: (l2 ++ (t :: (l3 ++ (v ++ y :: r)))))) := by simp
    rw [e1, skipSequence_spec [0x30] _ _ 1 rfl h1 (by simp only [List.length_singleton]; omega)]
    unfold guess1
    dsimp only
    have e2 : ([0x30] ++ (l1 ++ (0x30 :: (l2 ++ (t :: (l3 ++ (v ++ y :: r)))))) : List Byte) =
        ([0x30] ++ l1) ++ 0x30 :: (l2 ++ (t :: (l3 ++ (v ++ y :: r)))) := by simp
    rw [e2, get_header _ _ _ _ (by simp; omega)]
    dsimp only
    rw [if_neg (by decide), if_neg (by decide)]
    have e3 : (([0x30] ++ l1) ++ 0x30 :: (l2 ++ (t :: (l3 ++ (v ++ y :: r)))) : List Byte) =
        ([0x30] ++ l1 ++ [0x30]) ++ (l2 ++ (t :: (l3 ++ (v ++ y :: r)))) := by simp
    rw [e3, skipSequence_spec _ _ _ _ (by simp; omega) h2 (by simp only [List.length_append, List.length_singleton]; omega)]
    unfold guess2
    dsimp only
    have e4 : (([0x30] ++ l1 ++ [0x30]) ++ (l2 ++ (t :: (l3 ++ (v ++ y :: r)))) : List Byte) =
        ([0x30] ++ l1 ++ [0x30] ++ l2 ++ [t]) ++ (l3 ++ (v ++ y :: r)) := by simp
    rw [e4, skipInteger_spec _ _ v _ _ (by simp; omega) h3 (by simp only [List.length_append, List.length_singleton]; omega)]
    unfold guess3
    dsimp only
    have e5 : (([0x30] ++ l1 ++ [0x30] ++ l2 ++ [t]) ++ (l3 ++ (v ++ y :: r)) : List Byte) =
        ([0x30] ++ l1 ++ [0x30] ++ l2 ++ [t] ++ l3 ++ v) ++ y :: r := by simp
    rw [e5, get_header _ _ _ _ (by simp; omega)]
  refine ⟨?_, ?_, ?_⟩
  · rintro ⟨l, rest, rfl, hl, rfl⟩
    have e : (0x30 :: (l ++ 0x06 :: rest) : List Byte) = ([0x30] ++ (l ++ [0x06])) ++ rest := by simp
    unfold guessFileType
    rw [if_neg (by decide), if_neg (by simp), e]
    obtain ⟨r, hr⟩ := header_prefix (a := [0x30] ++ (l ++ [0x06])) (b := rest) (junk := junk)
      (by simp only [List.length_append, List.length_singleton]; omega)
    rw [hr]
    dsimp only
    rw [if_neg (by simp)]
    have e1 : ([0x30] ++ (l ++ [0x06]) ++ r : List Byte) = [0x30] ++ (l ++ (0x06 :: r)) := by simp
    rw [e1, skipSequence_spec [0x30] _ _ 1 rfl hl (by simp only [List.length_singleton]; omega)]
    unfold guess1
    dsimp only
    have e2 : ([0x30] ++ (l ++ (0x06 :: r)) : List Byte) = ([0x30] ++ l) ++ 0x06 :: r := by simp
    rw [e2, get_header _ _ _ _ (by simp; omega)]
    rfl
  · rintro ⟨l1, l2, l3, v, rest, rfl, h1, h2, h3, rfl⟩
    rw [core l1 l2 0xA0 l3 v 0x02 rest h1 h2 h3 hn]
    rfl
  · rintro ⟨l1, l2, l3, v, rest, rfl, h1, h2, h3, rfl⟩
    rw [core l1 l2 0x02 l3 v 0x30 rest h1 h2 h3 hn]
    rfl

/-- What's taken for a signed object, a certificate or a CRL starts like one, if the file has 32 bytes or more. (The tag of the version isn't
looked at.) -/
theorem C141_partial_sound (file junk : List Byte) (hf : 32 ≤ file.length) :
    (guessFileType .unk file junk = .type .roa → ∃ n, SignedObjectStart n file) ∧
    (∀ ft y, (ft = .cer ∧ y = 0x02 ∨ ft = .crl ∧ y = 0x30) → guessFileType .unk file junk = .type ft →
      ∃ (l1 l2 : List Byte) (t : Byte) (l3 v rest : List Byte), file = 0x30 :: (l1 ++ 0x30 :: (l2 ++ t :: (l3 ++ (v ++ y :: rest)))) ∧
        AnyLen l1 ∧ AnyLen l2 ∧ (IsLen v.length l3 ∨ l3 = [0x80] ∧ v = [])) := by
  have hfile : file = file.take 32 ++ file.drop 32 := (List.take_append_drop 32 file).symm
  have hlen : (file.take 32).length = 32 := by rw [List.length_take]; omega
  have hne : file ≠ [] := by intro h; subst h; simp at hf
  generalize file.take 32 = hdr at hfile hlen
  generalize file.drop 32 = tl at hfile
  have first : ∀ g, guessFileType .unk file junk = .type g → g ≠ .unk → ∃ r, hdr = 0x30 :: r ∧ guess1 hdr (skipSequence hdr 1) = .type g := by
    intro g h hg
    unfold guessFileType at h
    rw [if_neg (by decide), if_neg hne, header_long _ hf, hfile, List.take_left' hlen] at h
    dsimp only at h
    by_cases h0 : hdr.head? ≠ some 0x30
    · rw [if_pos h0] at h; injection h with h; exact absurd h.symm hg
    · rw [if_neg h0] at h
      cases hdr with
      | nil => simp at hlen
      | cons a r =>
        have : a = 0x30 := by simpa using h0
        subst this
        exact ⟨r, rfl, h⟩
  have second : ∀ g, guess1 hdr (skipSequence hdr 1) = .type g → g ≠ .unk → ∃ (l : List Byte) (b : Byte) (rest : List Byte), hdr.drop 1 = l ++ b :: rest ∧ AnyLen l ∧
      hdr.drop (1 + l.length + 1) = rest ∧ (b = 0x06 ∧ g = .roa ∨ b = 0x30 ∧ guess2 hdr (skipSequence hdr (1 + l.length + 1)) = .type g) := by
    intro g h hg
    cases hs : skipSequence hdr 1 with
    | ub => rw [hs] at h; cases h
    | null => rw [hs] at h; unfold guess1 at h; injection h with h; exact absurd h.symm hg
    | «at» q =>
      obtain ⟨_, _, l, rest, e, hl, hq⟩ := skipSequence_at hs
      rw [hs] at h
      unfold guess1 at h
      dsimp only at h
      cases hb : hdr[q]? with
      | none => rw [hb] at h; cases h
      | some b =>
        rw [hb] at h
        dsimp only at h
        obtain ⟨rest', rfl, hd⟩ := next_byte e hq hb
        subst hq
        refine ⟨l, b, rest', e, hl, hd, ?_⟩
        by_cases h6 : b = 0x06
        · rw [if_pos h6] at h; injection h with h; exact .inl ⟨h6, h.symm⟩
        · rw [if_neg h6] at h
          by_cases h30 : b ≠ 0x30
          · rw [if_pos h30] at h; injection h with h; exact absurd h.symm hg
          · rw [if_neg h30] at h
            exact .inr ⟨not_not.1 h30, h⟩
  constructor
  · intro h
    obtain ⟨r, hr, h1⟩ := first _ h (by decide)
    obtain ⟨l, b, rest, e, hl, _, h2⟩ := second _ h1 (by decide)
    rcases h2 with ⟨rfl, _⟩ | ⟨_, h2⟩
    · refine ⟨_, l, rest ++ tl, ?_, hl, rfl⟩
      rw [hr] at e
      simp only [List.drop_succ_cons, List.drop_zero] at e
      rw [hfile, hr, e]
      simp
    · exfalso
      cases hs : skipSequence hdr (1 + l.length + 1) with
      | ub => rw [hs] at h2; cases h2
      | null => rw [hs] at h2; cases h2
      | «at» q =>
        rw [hs] at h2
        unfold guess2 at h2
        dsimp only at h2
        cases hs2 : skipInteger hdr (q + 1) with
        | ub => rw [hs2] at h2; cases h2
        | null => rw [hs2] at h2; cases h2
        | «at» q2 =>
          rw [hs2] at h2
          unfold guess3 at h2
          dsimp only at h2
          split at h2
          · cases h2
          · split at h2
            · cases h2
            · split at h2 <;> cases h2
  · intro ft y hft h
    have hun : ft ≠ .unk := by rcases hft with ⟨rfl, _⟩ | ⟨rfl, _⟩ <;> decide
    have hro : ft ≠ .roa := by rcases hft with ⟨rfl, _⟩ | ⟨rfl, _⟩ <;> decide
    obtain ⟨r, hr, h1⟩ := first _ h hun
    obtain ⟨l1, b, rest, e, hl, hd, h2⟩ := second _ h1 hun
    rcases h2 with ⟨_, h2⟩ | ⟨rfl, h2⟩
    · exact absurd h2 hro
    · cases hs : skipSequence hdr (1 + l1.length + 1) with
      | ub => rw [hs] at h2; cases h2
      | null => rw [hs] at h2; unfold guess2 at h2; injection h2 with h2; exact absurd h2.symm hun
      | «at» q =>
        obtain ⟨_, _, l2, rest2, e2, hl2, hq⟩ := skipSequence_at hs
        rw [hs] at h2
        unfold guess2 at h2
        dsimp only at h2
        cases hs2 : skipInteger hdr (q + 1) with
        | ub => rw [hs2] at h2; cases h2
        | null => rw [hs2] at h2; unfold guess3 at h2; injection h2 with h2; exact absurd h2.symm hun
        | «at» q2 =>
          obtain ⟨hq32, _, l3, v, rest3, e3, hl3, hq2⟩ := skipInteger_at hs2 hlen
          have hqlt : q < hdr.length := by omega
          obtain ⟨t, ht⟩ : ∃ t, hdr[q]? = some t := ⟨_, List.getElem?_eq_getElem hqlt⟩
          obtain ⟨rest2', rfl, hd2⟩ := next_byte e2 hq ht
          rw [hs2] at h2
          unfold guess3 at h2
          dsimp only at h2
          cases hb : hdr[q2]? with
          | none => rw [hb] at h2; cases h2
          | some z =>
            rw [hb] at h2
            dsimp only at h2
            have e3' : hdr.drop (q + 1) = (l3 ++ v) ++ rest3 := by rw [e3, List.append_assoc]
            obtain ⟨rest3', rfl, _⟩ := next_byte e3' (by rw [hq2, List.length_append]) hb
            have hz : z = y := by
              by_cases hz2 : z = 0x02
              · rw [if_pos hz2] at h2
                injection h2 with h2
                rcases hft with ⟨_, rfl⟩ | ⟨rfl, _⟩
                · exact hz2
                · cases h2
              · rw [if_neg hz2] at h2
                by_cases hz3 : z = 0x30
                · rw [if_pos hz3] at h2
                  injection h2 with h2
                  rcases hft with ⟨rfl, _⟩ | ⟨_, rfl⟩
                  · cases h2
                  · exact hz3
                · rw [if_neg hz3] at h2
                  injection h2 with h2
                  exact absurd h2.symm hun
            subst hz
            refine ⟨l1, l2, t, l3, v, rest3' ++ tl, ?_, hl, hl2, hl3⟩
            rw [hr] at e
            simp only [List.drop_succ_cons, List.drop_zero] at e
            rw [hfile, hr, e, ← hd, e2, ← hd2, e3]
            simp

/-- The option's type is not questioned. -/
theorem C141_configured (t : FileType) (ht : t ≠ .unk) (file junk : List Byte) : guessFileType t file junk = .type t := by
  unfold guessFileType; rw [if_pos ht]

/-- A file for which the buffer is read outside of its limits: a SEQUENCE whose length takes the rest of the header, in zeros. -/
theorem C141_refuted : ∃ file : List Byte, ∀ junk, guessFileType .unk file junk = .ub := by
  refine ⟨0x30 :: 0x9E :: List.replicate 30 0, fun junk => ?_⟩
  unfold guessFileType
  rw [if_neg (by decide), if_neg (by decide), header_long _ (by decide)]
  decide

/-- Certificates without a version are taken for CRLs. -/
theorem C141_refuted_v1 : ∃ file n, CertificateV1Start n file ∧ n ≤ 32 ∧ ∀ junk, guessFileType .unk file junk = .type .crl := by
  refine ⟨[0x30, 0x10, 0x30, 0x0E, 0x02, 0x01, 0x05, 0x30, 0x09], 8, ?_, by decide, fun junk => ?_⟩
  · exact ⟨[0x10], [0x0E], [0x01], [0x05], [0x09], rfl, .inl ⟨16, by decide, .inl ⟨_, rfl, rfl, by decide⟩⟩,
      .inl ⟨14, by decide, .inl ⟨_, rfl, rfl, by decide⟩⟩, .inl ⟨_, rfl, rfl, by decide⟩, rfl⟩
  · exact (C141_partial _ junk 8 (by decide)).2.2 ⟨[0x10], [0x0E], [0x01], [0x05], [0x09], rfl, .inl ⟨16, by decide, .inl ⟨_, rfl, rfl, by decide⟩⟩,
      .inl ⟨14, by decide, .inl ⟨_, rfl, rfl, by decide⟩⟩, .inl ⟨_, rfl, rfl, by decide⟩, rfl⟩

/-- What a short file is taken for depends on what was on the stack. -/
theorem C141_refuted_short : ∃ file j1 j2 : List Byte, j1.length = 32 ∧ j2.length = 32 ∧
    guessFileType .unk file j1 = .type .roa ∧ guessFileType .unk file j2 = .type .unk :=
  ⟨[0x30, 0x00], List.replicate 32 6, List.replicate 32 0, rfl, rfl, by decide, by decide⟩

/-! ### The hypotheses are met -/

/-- The start of an RPKI certificate. -/
def exCertFile : List Byte := [0x30, 0x82, 0x05, 0x10, 0x30, 0x82, 0x03, 0xF8, 0xA0, 0x03, 0x02, 0x01, 0x02, 0x02, 0x01, 0x07] ++ List.replicate 40 0x41

example : CertificateStart 14 exCertFile :=
  ⟨[0x82, 0x05, 0x10], [0x82, 0x03, 0xF8], [0x03], [0x02, 0x01, 0x02], _, rfl, .inl ⟨1296, by decide, .inr ⟨_, [5, 0x10], rfl, by decide, by decide, by decide, by decide⟩⟩,
    .inl ⟨1016, by decide, .inr ⟨_, [3, 0xF8], rfl, by decide, by decide, by decide, by decide⟩⟩, .inl ⟨_, rfl, rfl, by decide⟩, rfl⟩
example : guessFileType .unk exCertFile [] = .type .cer := by decide

end Verif.Print
