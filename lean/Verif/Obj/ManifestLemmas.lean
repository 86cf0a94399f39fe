import Verif.Obj.DerLemmas
import Verif.Obj.ShapeProps
import Verif.Obj.IpLemmas
import Verif.Mft.MftProps
/-
What the program makes of a manifest that is written as in SpecObj.
-/
namespace Verif.Obj
open Verif.Res (Byte be)
open Verif.Asn

def FileSpec.val (f : FileSpec) : Val := .seq [some (.bytes f.name), some (.bits f.hash 0)]
def FileSpec.c (f : FileSpec) : Mft.FileAndHash := ⟨f.name, f.hash, 0⟩

theorem FileSpec.der {f : FileSpec} (h : Fits f.enc) : Der fileAndHashTy .own f.val f.enc :=
  der_sequence h (derMems_cons (der_octets (by decide) h.tlv.left)
    (derMems_last (der_bits (u := 0) h.tlv.right (by omega) (fun _ => rfl) (fun x _ => by simp [Nat.mod_one]))))

theorem fileOf_val (f : FileSpec) : fileOf f.val = some f.c := rfl

def MftSpec.val (m : MftSpec) : Val :=
  .seq [none, some (.bytes (intOctets m.number)), some (.bytes m.thisUpdate), some (.bytes m.nextUpdate), some (.bytes sha256Oid),
    some (.list (m.files.map FileSpec.val))]

def MftSpec.c (m : MftSpec) : Mft.Manifest := ⟨none, intOctets m.number, m.thisUpdate, m.nextUpdate, sha256Oid, m.files.map FileSpec.c⟩

theorem MftSpec.der {m : MftSpec} (h : Fits m.enc) : Der manifestTy .own m.val m.enc :=
  der_sequence h (derMems_none rfl (derMems_cons (der_int h.tlv.left) (derMems_cons (der_octets (by decide) h.tlv.right.left)
    (derMems_cons (der_octets (by decide) h.tlv.right.right.left) (derMems_cons (der_plain (by decide) h.tlv.right.right.right.left)
      (derMems_last (der_list h.tlv.right.right.right.right fun _ _ hf => FileSpec.der hf)))))))

theorem mftOf_val (m : MftSpec) : mftOf m.val = some m.c := by
  simp only [MftSpec.val, mftOf, all_map (fun f _ => fileOf_val f), optBytes]; rfl

theorem intOctets_head (n : Nat) : (intOctets n).headD 0 &&& 0x80 = 0 := by
  have key : ∀ b : Byte, ¬ 128 ≤ b.toNat → b &&& 0x80 = 0 := by decide +kernel
  unfold intOctets
  cases octets n with
  | nil => rfl
  | cons b bs =>
    simp only
    by_cases hb : 128 ≤ b.toNat
    · rw [if_pos hb]; exact key 0 (by decide)
    · rw [if_neg hb]; exact key b hb

theorem check_mft (nul : Nul) {m : MftSpec} {t : Int} (h : Mft.Denotes m.thisUpdate t) : check nul manifestCon m.val = .pass := by
  obtain ⟨tm, e, -⟩ := Mft.gt2time_denotes h
  have h1 : check (nul.at 1) .nonneg (.bytes (intOctets m.number)) = .pass := by
    unfold check
    rw [if_neg (by simpa using intOctets_head m.number)]
  have h2 : check (nul.at 2) generalizedTimeCon (.bytes m.thisUpdate) = .pass := by
    unfold generalizedTimeCon check
    rw [e]
  unfold manifestCon MftSpec.val check
  simp only [checkSeq, if_true]
  rw [h1]
  simp only [Bool.false_eq_true, if_false]
  exact h2

theorem decodeMft_enc {m : MftSpec} {t : Int} (ht : Mft.Denotes m.thisUpdate t) (h : Fits m.enc) (nul : Nul) (rest : List Byte) :
    decodeMft nul (m.enc ++ rest) = .ok m.c := by
  have h1 := ((C172_der _ mft_root nul _ _ rest (MftSpec.der h) h).1).2 (check_mft nul ht)
  unfold decodeMft
  rw [h1]
  simp only [got, mftOf_val]

theorem intOctets_length {n : Nat} (h : n < 2 ^ 159) : (intOctets n).length ≤ 20 := by
  have h20 : (octets n).length ≤ 20 := octets_length (k := 20) (Nat.lt_of_lt_of_le h (by decide))
  unfold intOctets
  have hb := be_octets n
  cases ho : octets n with
  | nil => simp
  | cons b bs =>
    rw [ho] at h20 hb
    simp only
    by_cases hx : 128 ≤ b.toNat
    · rw [if_pos hx]
      by_contra hc
      simp only [List.length_cons] at hc h20
      have hl : bs.length = 19 := by omega
      rw [Res.be] at hb
      rw [hl] at hb
      omega
    · rw [if_neg hx]; exact h20

/-- Files and URIs, in the same order. -/
theorem usable_all {env : Mft.Env} (h1 : env.notFound = .error) (h2 : env.mismatch = .error) {fs : List Mft.FileAndHash} {us : List Mft.Uri} :
    Mft.Usable env fs us ↔ List.Forall₂ (Mft.Matches env) fs us := by
  constructor
  · intro h
    induction h with
    | nil => exact .nil
    | take hm _ ih =>
      rcases hm with hm | hm
      · exact .cons hm ih
      · exact absurd h2 hm.2.2.2
    | skip ha _ _ => obtain ⟨_, _, _, _, h⟩ := ha; exact absurd h1 h
  · intro h
    induction h with
    | nil => exact .nil
    | cons hm _ ih => exact .take (.inl hm) ih

end Verif.Obj
