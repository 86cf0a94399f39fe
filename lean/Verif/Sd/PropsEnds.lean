import Verif.Sd.SameAll
import Verif.Asn.Props
/-
C186: where an object ends.
-/
namespace Verif.Sd
open Verif.Res (Byte)
open Verif.Asn

theorem asn1Decode_inv {nul : Nul} {ty : Ty} {con : Con} {s : List Byte} {v : Val} (h : asn1Decode nul ty con s = .ok v) :
    ∃ n, berDecode ty s = .ok v n ∧ check nul con v = .pass := by
  unfold asn1Decode at h
  cases hb : berDecode ty s with
  | ok w n =>
    rw [hb] at h
    simp only at h
    cases hc : check nul con w <;> rw [hc] at h <;> first | cases h; done | skip
    cases h
    exact ⟨n, rfl, hc⟩
  | more => rw [hb] at h; cases h
  | fail => rw [hb] at h; cases h
  | crash => rw [hb] at h; cases h
  | hang => rw [hb] at h; cases h

theorem asn1Decode_of {nul : Nul} {ty : Ty} {con : Con} {s : List Byte} {v : Val} {n : Nat} (h : berDecode ty s = .ok v n) (hc : check nul con v = .pass) :
    asn1Decode nul ty con s = .ok v := by
  unfold asn1Decode
  rw [h]
  simp only
  rw [hc]

/-- **C186.** For each object that is accepted there is one place where it ends: with any other bytes from there on the result is the same, and a file
that stops earlier is refused. -/
theorem C186_ends : ∀ p ∈ roots, ∀ (nul : Nul) (s : List Byte) (v : Val), asn1Decode nul p.1 p.2 s = .ok v →
    ∃ b rest, s = b ++ rest ∧ (∀ rest', asn1Decode nul p.1 p.2 (b ++ rest') = .ok v) ∧
      ∀ b' x, x ≠ [] → b = b' ++ x → ∀ nul' w, asn1Decode nul' p.1 p.2 b' ≠ .ok w := by
  intro p hp nul s v h
  obtain ⟨n, hn, hc⟩ := asn1Decode_inv h
  obtain ⟨h2, hle, -⟩ := dec_begins (roots_ok p hp) hn
  refine ⟨s.take n, s.drop n, (List.take_append_drop n s).symm, fun rest' => ?_, ?_⟩
  · refine asn1Decode_of (dec_same p.1 (roots_ok p hp) .none s _ v n hn ⟨hle, ?_, ?_⟩) hc
    · simp only [List.length_append, List.length_take]; omega
    · rw [List.take_append_of_le_length (by rw [List.length_take]; omega), List.take_take, Nat.min_self]
  · intro b' x hx hb nul' w hw
    obtain ⟨m, hm, -⟩ := asn1Decode_inv hw
    obtain ⟨-, hmle, -⟩ := dec_begins (roots_ok p hp) hm
    have hl : n = b'.length + x.length := by
      have := congrArg List.length hb
      rw [List.length_take, List.length_append] at this
      omega
    have hs : s = b' ++ (x ++ s.drop n) := by
      rw [← List.append_assoc, ← hb, List.take_append_drop]
    have := dec_same p.1 (roots_ok p hp) .none b' s w m hm ⟨hmle, by omega, by
      rw [hs, List.take_append_of_le_length hmle]⟩
    unfold berDecode at hn
    rw [hn] at this
    cases this
    have : 0 < x.length := List.length_pos_of_ne_nil hx
    omega

/-- No object begins with another one: what is in a file is known before the file's end is. -/
theorem C186_one : ∀ p ∈ roots, ∀ (s s' r r' : List Byte) (v v' : Val), berDecode p.1 s = .ok v s.length → berDecode p.1 s' = .ok v' s'.length →
    s ++ r = s' ++ r' → s = s' ∧ v = v' := by
  intro p hp s s' r r' v v' h h' he
  have a := dec_same p.1 (roots_ok p hp) .none s (s ++ r) v s.length h ⟨le_rfl, by simp, by simp⟩
  have b := dec_same p.1 (roots_ok p hp) .none s' (s' ++ r') v' s'.length h' ⟨le_rfl, by simp, by simp⟩
  rw [he, b] at a
  simp only [R.ok.injEq] at a
  exact ⟨(List.append_inj he a.2.symm).1, a.1.symm⟩

/-- A file with a ROA, and bytes that follow. -/
example : ∃ b rest, Ex.roa ++ [1, 2, 3] = b ++ rest ∧
    (∀ rest', asn1Decode .never routeOriginAttestationTy routeOriginAttestationCon (b ++ rest') = asn1Decode .never routeOriginAttestationTy routeOriginAttestationCon Ex.roa) := by
  have h := Ex.roa_decoded .never
  obtain ⟨n, h1, hc⟩ := asn1Decode_inv h
  have h2 := dec_same _ (roots_ok _ Ex.roa_root) .none Ex.roa (Ex.roa ++ [1, 2, 3]) _ n h1 (by
    have := (dec_begins (roots_ok _ Ex.roa_root) h1).2.1
    exact ⟨this, by rw [List.length_append]; omega, (List.take_append_of_le_length this).symm⟩)
  obtain ⟨b, rest, e1, e2, -⟩ := C186_ends _ Ex.roa_root .never _ _ (asn1Decode_of h2 hc)
  exact ⟨b, rest, e1, fun r => (e2 r).trans h.symm⟩

end Verif.Sd
