import Verif.Obj.DerLemmas
import Verif.Obj.ShapeProps
import Verif.Res.RoaProps
/-
What the program makes of resource extensions that are written as in SpecObj.
-/
namespace Verif.Obj
open Verif.Res (Byte be Rng R32 R6)
open Verif.Asn

/-! ### Zeros at the end -/

theorem trailing_le (w n : Nat) : trailing w n ≤ w := by
  induction w generalizing n with
  | zero => exact Nat.le_refl _
  | succ w ih =>
    unfold trailing
    by_cases h : n % 2 = 0
    · rw [if_pos h]; exact Nat.succ_le_succ (ih _)
    · rw [if_neg h]; exact Nat.zero_le _

theorem trailing_dvd (w n : Nat) : 2 ^ trailing w n ∣ n := by
  induction w generalizing n with
  | zero => exact Nat.one_dvd n
  | succ w ih =>
    unfold trailing
    by_cases h : n % 2 = 0
    · rw [if_pos h, Nat.pow_succ, Nat.mul_comm]
      obtain ⟨k, hk⟩ := ih (n / 2)
      exact ⟨k, by rw [Nat.mul_assoc, ← hk]; omega⟩
    · rw [if_neg h]; exact Nat.one_dvd n

theorem low_ok {w min : Nat} : 2 ^ (w - (w - trailing w min)) ∣ min := by
  have := trailing_le w min
  rw [show w - (w - trailing w min) = trailing w min by omega]
  exact trailing_dvd w min

theorem high_ok {w max : Nat} (h : max < 2 ^ w) :
    2 ^ (w - (w - trailing w (max + 1))) ∣ max + 1 - 2 ^ trailing w (max + 1) ∧ max + 1 - 2 ^ trailing w (max + 1) < 2 ^ w ∧
    max = max + 1 - 2 ^ trailing w (max + 1) + (2 ^ (w - (w - trailing w (max + 1))) - 1) := by
  have h1 := trailing_le w (max + 1)
  have h2 := trailing_dvd w (max + 1)
  have h3 := Nat.le_of_dvd (Nat.succ_pos _) h2
  have h4 : 0 < 2 ^ trailing w (max + 1) := Nat.pow_pos (by decide)
  rw [show w - (w - trailing w (max + 1)) = trailing w (max + 1) by omega]
  exact ⟨Nat.dvd_sub h2 (Nat.dvd_refl _), by omega, by omega⟩

/-! ### IP addresses -/

def bitsVal (w addr len : Nat) : Val := .bits (bitOctets w addr len) (unusedBits len)
def bitsC (w addr len : Nat) : Res.BitStr := ⟨bitOctets w addr len, unusedBits len⟩

def IpRes.val (w : Nat) : IpRes → Val
  | .pfx addr len => .alt 0 (bitsVal w addr len)
  | .range min max => .alt 1 (.seq [some (bitsVal w min (w - trailing w min)),
      some (bitsVal w (max + 1 - 2 ^ trailing w (max + 1)) (w - trailing w (max + 1)))])

def IpRes.c (w : Nat) : IpRes → Res.AddrOrRange
  | .pfx addr len => .pfx (bitsC w addr len)
  | .range min max => .range (bitsC w min (w - trailing w min)) (bitsC w (max + 1 - 2 ^ trailing w (max + 1)) (w - trailing w (max + 1)))

theorem IpRes.der {w : Nat} {x : IpRes} (hw : w % 8 = 0) (hv : x.Valid w) (h : Fits (x.enc w)) : Der ipAddressOrRangeTy .own (x.val w) (x.enc w) := by
  cases x with
  | pfx addr len => exact ⟨_, rfl, Or.inl ⟨_, rfl, der_prefix hw hv.1 hv.2.2 h⟩⟩
  | range min max =>
    obtain ⟨h1, h2, -⟩ := hv
    refine ⟨_, rfl, Or.inr (Or.inl ⟨_, rfl, ?_⟩)⟩
    exact der_sequence h (derMems_cons (der_prefix hw (Nat.sub_le _ _) low_ok h.tlv.left)
      (derMems_last (der_prefix hw (Nat.sub_le _ _) (high_ok h2).1 h.tlv.right)))

theorem aorOf_val (w : Nat) (x : IpRes) : aorOf (x.val w) = some (x.c w) := by cases x <;> rfl

def IpFam.val (f : IpFam) : Val :=
  .seq [some (.bytes (familyOctets f.v6)), some (match f.res with
    | none => .alt 0 .null
    | some l => .alt 1 (.list (l.map (IpRes.val (width f.v6)))))]

def IpFam.c (f : IpFam) : Res.IpBlock :=
  ⟨familyOctets f.v6, match f.res with
    | none => .inherit
    | some l => .aors (l.map (IpRes.c (width f.v6)))⟩

/-- All the ranges are. -/
def IpFam.Sound (f : IpFam) : Prop := ∀ l, f.res = some l → ∀ x ∈ l, x.Valid (width f.v6)

theorem IpFam.der {f : IpFam} (hv : f.Sound) (h : Fits f.enc) : Der ipAddressFamilyTy .own f.val f.enc := by
  unfold IpFam.val
  unfold IpFam.enc at h ⊢
  refine der_sequence h (derMems_cons (der_octets (by decide) h.tlv.left) (derMems_last ?_))
  have hr := h.tlv.right
  cases hf : f.res with
  | none =>
    rw [hf] at hr
    exact ⟨_, rfl, Or.inl ⟨_, rfl, der_null hr⟩⟩
  | some l =>
    rw [hf] at hr
    exact ⟨_, rfl, Or.inr (Or.inl ⟨_, rfl, der_list hr fun x hx hfit => IpRes.der (width_mod _) (hv l hf x hx) hfit⟩)⟩

theorem ipBlockOf_val (f : IpFam) : ipBlockOf f.val = some f.c := by
  unfold IpFam.val IpFam.c
  cases f.res with
  | none => rfl
  | some l => simp only [ipBlockOf, ipChoiceOf, all_map (fun x _ => aorOf_val (width f.v6) x), Option.map_some]

theorem check_bits {w addr len : Nat} : check .never .bits (bitsVal w addr len) = .pass := by
  unfold bitsVal check
  by_cases h : bitOctets w addr len = []
  · have hl := bitOctets_length w addr len
    rw [h] at hl
    simp only [List.length_nil] at hl
    rw [if_pos h, if_neg (by simp [Nul.never, unusedBits]; omega)]
  · rw [if_neg h, if_neg (by unfold unusedBits; omega)]

theorem never_at (i : Nat) : Nul.never.at i = Nul.never := rfl

theorem check_res {w : Nat} (x : IpRes) : check .never ipAddressOrRangeCon (x.val w) = .pass := by
  cases x with
  | pfx addr len => exact check_bits
  | range min max => exact check_bits

theorem checkAll_map {α : Type} {f : Nat → Val → Chk} {g : α → Val} (i : Nat) (l : List α) (h : ∀ j, ∀ x ∈ l, f j (g x) = .pass) :
    checkAll f i (l.map g) = .pass := by
  induction l generalizing i with
  | nil => rfl
  | cons x l ih =>
    simp only [List.map_cons, checkAll, h i x (by simp)]
    exact ih (i + 1) fun j y hy => h j y (by simp [hy])

theorem check_fam (f : IpFam) : check .never ipAddressFamilyCon f.val = .pass := by
  have hsz : (if 2 ≤ (familyOctets f.v6).length ∧ (familyOctets f.v6).length ≤ 3 then Chk.pass else .fail) = .pass := rfl
  unfold IpFam.val ipAddressFamilyCon
  simp only [check, checkSeq, hsz, if_true, never_at]
  cases f.res with
  | none => rfl
  | some l => exact checkAll_map 0 l fun j x _ => check_res x

theorem decodeIp_enc {l : List IpFam} (hv : ∀ f ∈ l, f.Sound) (h : Fits (encIp l)) (rest : List Byte) :
    decodeIp .never (encIp l ++ rest) = .ok (l.map IpFam.c) := by
  have hd : Der ipAddrBlocksExtTy .own (.list (l.map IpFam.val)) (encIp l) := der_list h fun f hf hfit => IpFam.der (hv f hf) hfit
  have hc : check .never ipAddrBlocksExtCon (.list (l.map IpFam.val)) = .pass := checkAll_map 0 l fun j f _ => check_fam f
  have h1 := ((C172_der _ ip_root .never _ _ rest hd h).1).2 hc
  unfold decodeIp
  rw [h1]
  simp only [got, ipBlocksOf, all_map fun f _ => ipBlockOf_val f]

/-- The number as an address. -/
theorem addr6 {n : Nat} (h : n < 2 ^ 128) : (bitOctets 128 n 128).length = 16 ∧ be (bitOctets 128 n 128) = n := by
  refine ⟨bitOctets_length 128 n 128, ?_⟩
  have := be_range 128 n 16 (by decide) h
  simpa [bitOctets] using this

theorem range_encodes {w min max : Nat} (hw : w % 8 = 0) (hv : (IpRes.range min max).Valid w) :
    Res.EncodesRange w (bitsC w min (w - trailing w min)) (bitsC w (max + 1 - 2 ^ trailing w (max + 1)) (w - trailing w (max + 1))) min max := by
  obtain ⟨h1, h2, h3⟩ := hv
  obtain ⟨h4, h5, h6⟩ := high_ok h2
  exact ⟨⟨_, prefix_encodes hw (Nat.sub_le _ _) (by omega) low_ok⟩, ⟨_, _, prefix_encodes hw (Nat.sub_le _ _) h5 h4, h6⟩, h1, h3⟩

theorem decode4_enc {x : IpRes} (hv : x.Valid 32) : ∃ r, Res.decode4 (x.c 32) = some r ∧ r.rng = x.rng 32 := by
  cases x with
  | pfx addr len =>
    obtain ⟨h1, h2, h3⟩ := hv
    have hp : Res.prefix4Decode (bitsC 32 addr len) = some ⟨BitVec.ofNat 32 addr, len⟩ := by
      rw [Res.C21_prefix4, BitVec.toNat_ofNat, Nat.mod_eq_of_lt h2]
      exact prefix_encodes (by decide) h1 h2 h3
    refine ⟨_, by simp only [Res.decode4, IpRes.c, hp, Option.map_some]; rfl, ?_⟩
    rw [Res.pton4_rng h1 (by rw [BitVec.toNat_ofNat, Nat.mod_eq_of_lt h2]; exact h3)]
    simp only [BitVec.toNat_ofNat, Nat.mod_eq_of_lt h2, IpRes.rng]
  | range min max =>
    have hm : max < 2 ^ 32 := hv.2.1
    have hn : min < 2 ^ 32 := Nat.lt_of_le_of_lt hv.1 hm
    refine ⟨⟨BitVec.ofNat 32 min, BitVec.ofNat 32 max⟩, ?_, ?_⟩
    · simp only [Res.decode4, IpRes.c]
      rw [Res.C22_range4, BitVec.toNat_ofNat, BitVec.toNat_ofNat, Nat.mod_eq_of_lt hm, Nat.mod_eq_of_lt hn]
      exact range_encodes (by decide) hv
    · simp only [R32.rng, BitVec.toNat_ofNat, Nat.mod_eq_of_lt hm, Nat.mod_eq_of_lt hn, IpRes.rng]

theorem decode6_enc {x : IpRes} (hv : x.Valid 128) : ∃ r, Res.decode6 (x.c 128) = some r ∧ r.rng = x.rng 128 := by
  cases x with
  | pfx addr len =>
    obtain ⟨h1, h2, h3⟩ := hv
    obtain ⟨a1, a2⟩ := addr6 h2
    have hp : Res.prefix6Decode (bitsC 128 addr len) = some ⟨bitOctets 128 addr 128, len⟩ := by
      rw [Res.C21_prefix6, a2]
      exact ⟨a1, prefix_encodes (by decide) h1 h2 h3⟩
    refine ⟨_, by simp only [Res.decode6, IpRes.c, hp, Option.map_some]; rfl, ?_⟩
    rw [Res.ptor6_rng a1 h1 (by rw [a2]; exact h3)]
    simp only [a2, IpRes.rng]
  | range min max =>
    have hm : max < 2 ^ 128 := hv.2.1
    obtain ⟨a1, a2⟩ := addr6 hm
    obtain ⟨b1, b2⟩ := addr6 (Nat.lt_of_le_of_lt hv.1 hm)
    refine ⟨⟨bitOctets 128 min 128, bitOctets 128 max 128⟩, ?_, ?_⟩
    · simp only [Res.decode6, IpRes.c]
      rw [Res.C22_range6, a2, b2]
      exact ⟨b1, a1, range_encodes (by decide) hv⟩
    · simp only [R6.rng, a2, b2, IpRes.rng]

/-! ### AS numbers -/

def AsRes.val : AsRes → Val
  | .one n => .alt 0 (.bytes (intOctets n))
  | .range min max => .alt 1 (.seq [some (.bytes (intOctets min)), some (.bytes (intOctets max))])

def AsRes.c : AsRes → Res.AsIdOrRange
  | .one n => .id (intOctets n)
  | .range min max => .range (intOctets min) (intOctets max)

theorem AsRes.der {x : AsRes} (h : Fits x.enc) : Der asIdOrRangeTy .own x.val x.enc := by
  cases x with
  | one n => exact ⟨_, rfl, Or.inl ⟨_, rfl, der_int h⟩⟩
  | range min max => exact ⟨_, rfl, Or.inr (Or.inl ⟨_, rfl, der_sequence h (derMems_cons (der_int h.tlv.left) (derMems_last (der_int h.tlv.right)))⟩)⟩

theorem asOrRangeOf_val (x : AsRes) : asOrRangeOf x.val = some x.c := by cases x <;> rfl

def asVal (l : Option (List AsRes)) : Val :=
  .seq [some (match l with | none => .alt 0 .null | some l => .alt 1 (.list (l.map AsRes.val))), none]

def asC (l : Option (List AsRes)) : Res.AsIds :=
  ⟨some (match l with | none => .inherit | some l => .list (l.map AsRes.c)), false⟩

theorem as_der {l : Option (List AsRes)} (h : Fits (encAs l)) : Der asIdentifiersTy .own (asVal l) (encAs l) := by
  unfold asVal
  unfold encAs at h ⊢
  have h2 := h.tlv.tlv
  have hm : ∀ {v : Val} {c : List Byte}, Fits (tlv 0xA0 c) → Der asIdentifierChoiceTy .own v c → Der asIdentifierChoiceTy (.explicit 2) v (tlv 0xA0 c) := by
    intro v c hf hd
    obtain ⟨c', e, hd⟩ := hd
    cases e
    exact ⟨_, dnest1 (by decide) hf, hd⟩
  have hl : ∀ {v : Val} {d : List Byte}, Der asIdentifierChoiceTy (.explicit 2) v d →
      DerMems (.cons ⟨some 2, .explicit, true, false, [2]⟩ asIdentifierChoiceTy (.cons ⟨some 6, .explicit, true, false, [6]⟩ asIdentifierChoiceTy .nil)) [some v, none] d := by
    intro v d hd
    have := derMems_cons (h := ⟨some 2, .explicit, true, false, [2]⟩) hd (derMems_none (h := ⟨some 6, .explicit, true, false, [6]⟩) (ty := asIdentifierChoiceTy) rfl derMems_nil)
    rwa [List.append_nil] at this
  refine der_sequence h (hl (hm h.tlv ?_))
  cases l with
  | none => exact ⟨_, rfl, Or.inl ⟨_, rfl, der_null h2⟩⟩
  | some l => exact ⟨_, rfl, Or.inr (Or.inl ⟨_, rfl, der_list h2 fun x _ hfit => AsRes.der hfit⟩)⟩

theorem asIdsOf_val (l : Option (List AsRes)) : asIdsOf (asVal l) = some (asC l) := by
  cases l with
  | none => rfl
  | some l => simp only [asVal, asC, asIdsOf, asChoiceOf, all_map (fun x _ => asOrRangeOf_val x), Option.map_some, Option.isSome_none]

theorem check_as (nul : Nul) (l : Option (List AsRes)) : check nul asIdentifiersCon (asVal l) = .pass := by
  cases l with
  | none => rfl
  | some l =>
    refine checkAll_map 0 l fun j x _ => ?_
    cases x <;> rfl

theorem decodeAs_enc {l : Option (List AsRes)} (h : Fits (encAs l)) (nul : Nul) (rest : List Byte) : decodeAs nul (encAs l ++ rest) = .ok (asC l) := by
  have h1 := ((C172_der _ as_root nul _ _ rest (as_der h) h).1).2 (check_as nul l)
  unfold decodeAs
  rw [h1]
  simp only [got, asIdsOf_val]

theorem asId2u32_enc {n : Nat} (h : n < 2 ^ 32) : Res.asId2u32 (intOctets n) = some (BitVec.ofNat 32 n) := by
  rw [Res.asId2u32_iff, be_intOctets, BitVec.toNat_ofNat, Nat.mod_eq_of_lt h]

theorem asRes_enc {x : AsRes} (hv : x.Valid) : ∃ r, Res.decodeAs x.c = some r ∧ r.rng = x.rng := by
  cases x with
  | one n =>
    have hn : n < 2 ^ 32 := hv
    refine ⟨_, by simp only [Res.decodeAs, AsRes.c, asId2u32_enc hn, Option.map_some]; rfl, ?_⟩
    simp only [R32.rng, BitVec.toNat_ofNat, Nat.mod_eq_of_lt hn, AsRes.rng]
  | range min max =>
    obtain ⟨h1, h2⟩ := hv
    have h3 : min < 2 ^ 32 := by omega
    refine ⟨⟨BitVec.ofNat 32 min, BitVec.ofNat 32 max⟩, ?_, ?_⟩
    · simp only [Res.decodeAs, AsRes.c, asId2u32_enc h2, asId2u32_enc h3]
      rw [if_neg]
      simp only [gt_iff_lt, BitVec.lt_def, BitVec.toNat_ofNat, Nat.mod_eq_of_lt h2, Nat.mod_eq_of_lt h3]
      omega
    · simp only [R32.rng, BitVec.toNat_ofNat, Nat.mod_eq_of_lt h2, Nat.mod_eq_of_lt h3, AsRes.rng]

end Verif.Obj
