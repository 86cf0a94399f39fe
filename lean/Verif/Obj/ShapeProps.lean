import Verif.Obj.Model
import Verif.Asn.Props
/-
C178: what is decoded can be read.
-/
namespace Verif.Obj
open Verif.Res (Byte)
open Verif.Asn

theorem all_some {α : Type} {f : Val → Option α} {l : List Val} (h : ∀ v ∈ l, ∃ a, f v = some a) : ∃ as, all f l = some as := by
  induction l with
  | nil => exact ⟨[], rfl⟩
  | cons v l ih =>
    obtain ⟨a, ha⟩ := h v (by simp)
    obtain ⟨as, has⟩ := ih fun w hw => h w (by simp [hw])
    exact ⟨a :: as, by simp only [all, ha, has]⟩

theorem optBytes_some {o : Option Val} {t : List Tag} (h : ∀ x, o = some x → HasTy (.prim .plain t) x) : ∃ m, optBytes o = some m := by
  cases o with
  | none => exact ⟨none, rfl⟩
  | some x => obtain ⟨b, rfl⟩ := h x rfl; exact ⟨some b, rfl⟩

/-- A member that is not optional. -/
theorem must {h : Head} {ty : Ty} {o : Option Val} (hh : h.opt = false) (h1 : o = none → h.opt = true) (h2 : ∀ x, o = some x → HasTy ty x) :
    ∃ x, o = some x ∧ HasTy ty x := by
  cases o with
  | none => rw [hh] at h1; cases h1 rfl
  | some x => exact ⟨x, rfl, h2 x rfl⟩

theorem roaAddrOf_some {v : Val} (h : HasTy roaipAddressTy v) : ∃ a, roaAddrOf v = some a := by
  obtain ⟨vs, rfl, o1, w1, rfl, m1, t1, o2, w2, rfl, -, t2, rfl⟩ := h
  obtain ⟨x, rfl, b, u, rfl, -⟩ := must rfl m1 t1
  obtain ⟨m, hm⟩ := optBytes_some t2
  exact ⟨_, by simp only [roaAddrOf, hm, Option.map_some]; rfl⟩

theorem roaBlockOf_some {v : Val} (h : HasTy roaipAddressFamilyTy v) : ∃ a, roaBlockOf v = some a := by
  obtain ⟨vs, rfl, o1, w1, rfl, m1, t1, o2, w2, rfl, m2, t2, rfl⟩ := h
  obtain ⟨x, rfl, b, rfl⟩ := must rfl m1 t1
  obtain ⟨y, rfl, l, rfl, hl⟩ := must rfl m2 t2
  obtain ⟨as, has⟩ := all_some fun v hv => roaAddrOf_some (hl v hv)
  exact ⟨_, by simp only [roaBlockOf, has, Option.map_some]; rfl⟩

theorem roaOf_some {v : Val} (h : HasTy routeOriginAttestationTy v) : ∃ a, roaOf v = some a := by
  obtain ⟨vs, rfl, o1, w1, rfl, -, t1, o2, w2, rfl, m2, t2, o3, w3, rfl, m3, t3, rfl⟩ := h
  obtain ⟨m, hm⟩ := optBytes_some t1
  obtain ⟨x, rfl, b, rfl⟩ := must rfl m2 t2
  obtain ⟨y, rfl, l, rfl, hl⟩ := must rfl m3 t3
  obtain ⟨as, has⟩ := all_some fun v hv => roaBlockOf_some (hl v hv)
  exact ⟨_, by simp only [roaOf, hm, has]; rfl⟩

theorem fileOf_some {v : Val} (h : HasTy fileAndHashTy v) : ∃ a, fileOf v = some a := by
  obtain ⟨vs, rfl, o1, w1, rfl, m1, t1, o2, w2, rfl, m2, t2, rfl⟩ := h
  obtain ⟨x, rfl, b, rfl⟩ := must rfl m1 t1
  obtain ⟨y, rfl, c, u, rfl, -⟩ := must rfl m2 t2
  exact ⟨_, rfl⟩

theorem mftOf_some {v : Val} (h : HasTy manifestTy v) : ∃ a, mftOf v = some a := by
  obtain ⟨vs, rfl, o1, w1, rfl, -, t1, o2, w2, rfl, m2, t2, o3, w3, rfl, m3, t3, o4, w4, rfl, m4, t4, o5, w5, rfl, m5, t5, o6, w6, rfl, m6, t6, rfl⟩ := h
  obtain ⟨m, hm⟩ := optBytes_some t1
  obtain ⟨x2, rfl, b2, rfl⟩ := must rfl m2 t2
  obtain ⟨x3, rfl, b3, rfl⟩ := must rfl m3 t3
  obtain ⟨x4, rfl, b4, rfl⟩ := must rfl m4 t4
  obtain ⟨x5, rfl, b5, rfl⟩ := must rfl m5 t5
  obtain ⟨x6, rfl, l, rfl, hl⟩ := must rfl m6 t6
  obtain ⟨as, has⟩ := all_some fun v hv => fileOf_some (hl v hv)
  exact ⟨_, by simp only [mftOf, hm, has]; rfl⟩

theorem aorOf_some {v : Val} (h : HasTy ipAddressOrRangeTy v) : ∃ a, aorOf v = some a := by
  obtain ⟨i, x, rfl, h⟩ := h
  match i, h with
  | 0, h => obtain ⟨b, u, rfl, -⟩ := h; exact ⟨_, rfl⟩
  | 1, h =>
    obtain ⟨vs, rfl, o1, w1, rfl, m1, t1, o2, w2, rfl, m2, t2, rfl⟩ := h
    obtain ⟨y, rfl, b, u, rfl, -⟩ := must rfl m1 t1
    obtain ⟨z, rfl, c, w, rfl, -⟩ := must rfl m2 t2
    exact ⟨_, rfl⟩

theorem ipChoiceOf_some {v : Val} (h : HasTy ipAddressChoiceTy v) : ∃ a, ipChoiceOf v = some a := by
  obtain ⟨i, x, rfl, h⟩ := h
  match i, h with
  | 0, h => cases h; exact ⟨_, rfl⟩
  | 1, h =>
    obtain ⟨l, rfl, hl⟩ := h
    obtain ⟨as, has⟩ := all_some fun v hv => aorOf_some (hl v hv)
    exact ⟨_, by simp only [ipChoiceOf, has, Option.map_some]; rfl⟩

theorem ipBlockOf_some {v : Val} (h : HasTy ipAddressFamilyTy v) : ∃ a, ipBlockOf v = some a := by
  obtain ⟨vs, rfl, o1, w1, rfl, m1, t1, o2, w2, rfl, m2, t2, rfl⟩ := h
  obtain ⟨x, rfl, b, rfl⟩ := must rfl m1 t1
  obtain ⟨y, rfl, hy⟩ := must rfl m2 t2
  obtain ⟨c, hc⟩ := ipChoiceOf_some hy
  exact ⟨_, by simp only [ipBlockOf, hc, Option.map_some]; rfl⟩

theorem ipBlocksOf_some {v : Val} (h : HasTy ipAddrBlocksExtTy v) : ∃ a, ipBlocksOf v = some a := by
  obtain ⟨l, rfl, hl⟩ := h
  exact all_some fun v hv => ipBlockOf_some (hl v hv)

theorem asOrRangeOf_some {v : Val} (h : HasTy asIdOrRangeTy v) : ∃ a, asOrRangeOf v = some a := by
  obtain ⟨i, x, rfl, h⟩ := h
  match i, h with
  | 0, h => obtain ⟨b, rfl⟩ := h; exact ⟨_, rfl⟩
  | 1, h =>
    obtain ⟨vs, rfl, o1, w1, rfl, m1, t1, o2, w2, rfl, m2, t2, rfl⟩ := h
    obtain ⟨y, rfl, b, rfl⟩ := must rfl m1 t1
    obtain ⟨z, rfl, c, rfl⟩ := must rfl m2 t2
    exact ⟨_, rfl⟩

theorem asChoiceOf_some {v : Val} (h : HasTy asIdentifierChoiceTy v) : ∃ a, asChoiceOf v = some a := by
  obtain ⟨i, x, rfl, h⟩ := h
  match i, h with
  | 0, h => cases h; exact ⟨_, rfl⟩
  | 1, h =>
    obtain ⟨l, rfl, hl⟩ := h
    obtain ⟨as, has⟩ := all_some fun v hv => asOrRangeOf_some (hl v hv)
    exact ⟨_, by simp only [asChoiceOf, has, Option.map_some]; rfl⟩

theorem asIdsOf_some {v : Val} (h : HasTy asIdentifiersTy v) : ∃ a, asIdsOf v = some a := by
  obtain ⟨vs, rfl, o1, w1, rfl, -, t1, o2, w2, rfl, -, -, rfl⟩ := h
  cases o1 with
  | none => exact ⟨_, rfl⟩
  | some c =>
    obtain ⟨d, hd⟩ := asChoiceOf_some (t1 c rfl)
    exact ⟨_, by simp only [asIdsOf, hd, Option.map_some]; rfl⟩

theorem got_ok {α : Type} {p : Ty × Con} (hp : p ∈ roots) {f : Val → Option α} (hf : ∀ v, HasTy p.1 v → ∃ a, f v = some a) (nul : Nul) (s : List Byte) :
    got f (asn1Decode nul p.1 p.2 s) ≠ .bad := by
  have hs := C170_safe p hp nul s
  cases h : asn1Decode nul p.1 p.2 s with
  | ok v =>
    obtain ⟨a, ha⟩ := hf v (C174_shape p hp nul s v h)
    simp only [got, ha, ne_eq, reduceCtorEq, not_false_eq_true]
  | abort => exact absurd h hs.2
  | crash => exact absurd h hs.1
  | _ => simp [got]

theorem got_hang {α : Type} {f : Val → Option α} {d : Decoded} (h : d ≠ .hang) : got f d ≠ .hang := by
  cases d with
  | ok v => simp only [got]; cases f v <;> simp
  | hang => exact absurd rfl h
  | _ => simp [got]

theorem mft_root : (manifestTy, manifestCon) ∈ roots := by simp [roots]
theorem ip_root : (ipAddrBlocksExtTy, ipAddrBlocksExtCon) ∈ roots := by simp [roots]
theorem as_root : (asIdentifiersTy, asIdentifiersCon) ∈ roots := by simp [roots]

/-- Whatever the bytes are, reading ROAs, manifests and resource extensions follows no pointer that is not there, and reads no alternative
that was not chosen. -/
theorem C178_readable (nul : Nul) (s : List Byte) : decodeRoa nul s ≠ .bad ∧ decodeMft nul s ≠ .bad ∧ decodeIp nul s ≠ .bad ∧ decodeAs nul s ≠ .bad :=
  ⟨got_ok Ex.roa_root (fun _ => roaOf_some) nul s, got_ok mft_root (fun _ => mftOf_some) nul s, got_ok ip_root (fun _ => ipBlocksOf_some) nul s,
    got_ok as_root (fun _ => asIdsOf_some) nul s⟩

/-- And the decoder of ROAs, manifests and IP resources comes to an end. (That of AS resources doesn't: C169.) -/
theorem C178_ends (nul : Nul) (s : List Byte) : decodeRoa nul s ≠ .hang ∧ decodeMft nul s ≠ .hang ∧ decodeIp nul s ≠ .hang :=
  ⟨got_hang (C169_ends_partial _ Ex.roa_root (by simp [routeOriginAttestationTy, asIdentifiersTy]) nul s),
    got_hang (C169_ends_partial _ mft_root (by simp [manifestTy, asIdentifiersTy]) nul s),
    got_hang (C169_ends_partial _ ip_root (by simp [ipAddrBlocksExtTy, asIdentifiersTy]) nul s)⟩

/-- The ROA of the examples of C172 is read. -/
example : decodeRoa .never Ex.roa = .ok ⟨none, [0, 0xFB, 0xF0], [⟨[0, 1], [⟨⟨[0x0A], 0⟩, some [24]⟩]⟩]⟩ := by
  unfold decodeRoa
  rw [Ex.roa_decoded]
  rfl

/-- A ROA that is cut is an error. -/
example : decodeRoa .never (Ex.roa.take 20) = .error := by
  unfold decodeRoa
  rw [Decoded.eq_error (r := asn1Decode .never routeOriginAttestationTy routeOriginAttestationCon (Ex.roa.take 20)) (by decide +kernel)]
  rfl

end Verif.Obj
