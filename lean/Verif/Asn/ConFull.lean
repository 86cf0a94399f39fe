import Verif.Asn.ConLemmas
/-
Types whose constraints are checked completely.
-/
namespace Verif.Asn
open Verif.Res (Byte)

mutual
/-- All values of the type comply. -/
def Con.easyB : Con → Ty → Bool
  | .none, _ => true
  | .bits, .str .bits _ _ => true
  | .utime, _ => true
  | .same c, ty => c.easyB ty
  | .seq ms, .seq _ ts => ms.easyB ts
  | .setOf c, .setOf _ _ el => c.easyB el
  | .choice as, .choice _ ts => as.easyB ts
  | _, _ => false

def Cons.easyB : Cons → Mems → Bool
  | .nil, .nil => true
  | .cons _ _ c rest, .cons _ ty ts => c.easyB ty && rest.easyB ts
  | _, _ => false
end

theorem easy_meets (c : Con) : ∀ (ty : Ty) (v : Val), c.easyB ty = true → HasTy ty v → Meets c v := by
  induction c using Con.rec
    (motive_2 := fun cs => (∀ (ts : Mems) (vs : List (Option Val)), cs.easyB ts = true → HasMems ts vs → MeetsAll cs vs) ∧
      (∀ (ts : Mems) (i : Nat) (v : Val), cs.easyB ts = true → HasAlt ts i v → MeetsAt cs i v)) with
  | none => intro ty v _ _; trivial
  | bits =>
    intro ty v hf hv
    cases ty with
    | str k _ _ =>
      cases k with
      | bits => obtain ⟨b, u, rfl, h1, h2⟩ := hv; rintro b u ⟨⟩; exact ⟨h1, h2⟩
      | _ => simp [Con.easyB] at hf
    | _ => simp [Con.easyB] at hf
  | utime => intro ty v _ _; trivial
  | same c ih => intro ty v hf hv; simp only [Con.easyB] at hf; exact ih _ _ hf hv
  | seq ms ih =>
    intro ty v hf hv
    cases ty with
    | seq t ts => obtain ⟨vs, rfl, hvs⟩ := hv; simp only [Con.easyB] at hf; rintro vs ⟨⟩; exact ih.1 _ _ hf hvs
    | _ => simp [Con.easyB] at hf
  | setOf c ih =>
    intro ty v hf hv
    cases ty with
    | setOf t tag el => obtain ⟨l, rfl, hl⟩ := hv; simp only [Con.easyB] at hf; rintro l ⟨⟩ x hx; exact ih _ _ hf (hl x hx)
    | _ => simp [Con.easyB] at hf
  | choice as ih =>
    intro ty v hf hv
    cases ty with
    | choice t ts => obtain ⟨i, x, rfl, hx⟩ := hv; simp only [Con.easyB] at hf; rintro i x ⟨⟩; exact ih.2 _ _ _ hf hx
    | _ => simp [Con.easyB] at hf
  | ia5 => intro ty v hf hv; simp [Con.easyB] at hf
  | oid => intro ty v hf hv; simp [Con.easyB] at hf
  | gtime => intro ty v hf hv; simp [Con.easyB] at hf
  | size lo hi => intro ty v hf hv; simp [Con.easyB] at hf
  | nonneg => intro ty v hf hv; simp [Con.easyB] at hf
  | filled c ih => intro ty v hf hv; simp [Con.easyB] at hf
  | nil =>
    refine ⟨fun ts vs hf hv => ?_, fun ts i v hf hv => ?_⟩
    · trivial
    · trivial
  | cons opt own c rest ih1 ih2 =>
    refine ⟨fun ts vs hf hv => ?_, fun ts i v hf hv => ?_⟩
    · cases ts with
      | nil => simp [Cons.easyB] at hf
      | cons h ty ts =>
        simp only [Cons.easyB, Bool.and_eq_true] at hf
        obtain ⟨o, ws, rfl, ho, hx, hw⟩ := hv
        exact ⟨fun x e => ih1 _ _ hf.1 (hx x (Option.some.inj e)), ih2.1 _ _ hf.2 hw⟩
    · cases ts with
      | nil => simp [Cons.easyB] at hf
      | cons h ty ts =>
        simp only [Cons.easyB, Bool.and_eq_true] at hf
        cases i with
        | zero => exact ih1 _ _ hf.1 hv
        | succ i => exact ih2.2 _ _ _ hf.2 hv

mutual
/-- The check finds all that does not comply. -/
def Con.fullB : Con → Ty → Bool
  | .none, _ => true
  | .bits, .str .bits _ _ => true
  | .ia5, .str .octets _ _ => true
  | .oid, .prim .plain _ => true
  | .size _ _, .str .octets _ _ => true
  | .nonneg, .prim .plain _ => true
  | .filled c, .setOf t tag el => c.fullB (.setOf t tag el)
  | .same c, ty => c.fullB ty
  | .seq ms, .seq _ ts => ms.fullB ts
  | .setOf c, .setOf _ _ el => c.fullB el
  | .choice as, .choice _ ts => as.fullAltB ts
  | _, _ => false

def Cons.fullB : Cons → Mems → Bool
  | .nil, .nil => true
  | .cons _ own c rest, .cons _ ty ts => c.fullB ty && (if own then rest.fullB ts else rest.easyB ts)
  | _, _ => false

def Cons.fullAltB : Cons → Mems → Bool
  | .nil, .nil => true
  | .cons _ _ c rest, .cons _ ty ts => c.fullB ty && rest.fullAltB ts
  | _, _ => false
end

theorem checkAll_pass {f : Nat → Val → Chk} : ∀ {i : Nat} {l : List Val}, checkAll f i l = .pass → ∀ x ∈ l, ∃ j, f j x = .pass
  | _, [], _, x, hx => by cases hx
  | i, y :: l, h, x, hx => by
    simp only [checkAll] at h
    cases hy : f i y with
    | pass =>
      rw [hy] at h
      rcases List.mem_cons.1 hx with rfl | hx
      · exact ⟨i, hy⟩
      · exact checkAll_pass h x hx
    | _ => rw [hy] at h; cases h

theorem ite_pass {p : Prop} [Decidable p] {a : Chk} (h : (if p then .fail else a) = .pass) : ¬ p ∧ a = .pass := by
  by_cases hp : p
  · rw [if_pos hp] at h; cases h
  · rw [if_neg hp] at h; exact ⟨hp, h⟩

theorem byte_sign (x : Byte) : x &&& 0x80 ≠ 0 ↔ 128 ≤ x.toNat := by
  revert x; decide +kernel

theorem full_meets (nul : Nul) (c : Con) : ∀ (ty : Ty) (v : Val), c.fullB ty = true → HasTy ty v → check nul c v = .pass → Meets c v := by
  induction c using Con.rec
    (motive_2 := fun cs => ∀ nul : Nul, (∀ (j : Nat) (ts : Mems) (vs : List (Option Val)), cs.fullB ts = true → HasMems ts vs → checkSeq nul j cs vs = .pass → MeetsAll cs vs) ∧
      (∀ (ts : Mems) (i : Nat) (v : Val), cs.fullAltB ts = true → HasAlt ts i v → checkAlt nul cs i v = .pass → MeetsAt cs i v)) generalizing nul with
  | none => intro ty v _ _ _; trivial
  | bits =>
    intro ty v hf hv _
    exact easy_meets .bits ty v (by
      cases ty with
      | str k _ _ => cases k <;> simp_all [Con.fullB, Con.easyB]
      | _ => simp_all [Con.fullB]) hv
  | utime => intro ty v _ _ _; trivial
  | same c ih => intro ty v hf hv hc; simp only [Con.fullB] at hf; simp only [check] at hc; exact ih nul _ _ hf hv hc
  | seq ms ih =>
    intro ty v hf hv hc
    cases ty with
    | seq t ts =>
      obtain ⟨vs, rfl, hvs⟩ := hv; simp only [Con.fullB] at hf; simp only [check] at hc
      rintro vs ⟨⟩; exact (ih nul).1 _ _ _ hf hvs hc
    | _ => simp [Con.fullB] at hf
  | setOf c ih =>
    intro ty v hf hv hc
    cases ty with
    | setOf t tag el =>
      obtain ⟨l, rfl, hl⟩ := hv; simp only [Con.fullB] at hf; simp only [check] at hc
      rintro l ⟨⟩ x hx; obtain ⟨j, hj⟩ := checkAll_pass hc x hx; exact ih _ _ _ hf (hl x hx) hj
    | _ => simp [Con.fullB] at hf
  | choice as ih =>
    intro ty v hf hv hc
    cases ty with
    | choice t ts =>
      obtain ⟨i, x, rfl, hx⟩ := hv; simp only [Con.fullB] at hf; simp only [check] at hc
      rintro i x ⟨⟩; exact (ih nul).2 _ _ _ hf hx hc
    | _ => simp [Con.fullB] at hf
  | ia5 =>
    intro ty v hf hv hc
    rintro b rfl x hx
    simp only [check] at hc
    obtain ⟨-, hc⟩ := ite_pass hc
    obtain ⟨hc, -⟩ := ite_pass hc
    simp only [List.any_eq_true, decide_eq_true_eq, not_exists, not_and] at hc
    have := hc x hx
    rw [gt_iff_lt, BitVec.lt_def] at this
    simp at this
    omega
  | oid =>
    intro ty v hf hv hc
    rintro b rfl rfl
    simp [check] at hc
  | gtime => intro ty v hf hv; simp [Con.fullB] at hf
  | size lo hi =>
    intro ty v hf hv hc
    rintro b rfl
    simp only [check] at hc
    by_cases h : lo ≤ b.length ∧ b.length ≤ hi
    · exact h
    · rw [if_neg h] at hc; cases hc
  | nonneg =>
    intro ty v hf hv hc
    rintro b x rest rfl rfl
    simp only [check] at hc
    obtain ⟨hc, -⟩ := ite_pass hc
    have h2 := mt (byte_sign x).2 (by simpa using hc)
    omega
  | filled c ih =>
    intro ty v hf hv hc
    cases ty with
    | setOf t tag el =>
      obtain ⟨l, rfl, hl⟩ := hv; simp only [Con.fullB] at hf; simp only [check] at hc
      by_cases h : l.length ≥ 1
      · rw [if_pos h] at hc
        exact ⟨by rintro ⟨⟩; simp at h, ih nul _ _ hf ⟨l, rfl, hl⟩ hc⟩
      · rw [if_neg h] at hc; cases hc
    | _ => simp [Con.fullB] at hf
  | nil =>
    rename_i nul
    refine ⟨fun j ts vs hf hv _ => ?_, fun ts i v hf hv _ => ?_⟩
    · trivial
    · trivial
  | cons opt own c rest ih1 ih2 =>
    rename_i nul
    refine ⟨fun j ts vs hf hv hc => ?_, fun ts i v hf hv hc => ?_⟩
    · cases ts with
      | nil => simp [Cons.fullB] at hf
      | cons h ty ts =>
        simp only [Cons.fullB, Bool.and_eq_true] at hf
        obtain ⟨o, ws, rfl, ho, hx, hw⟩ := hv
        have easy : own = false → MeetsAll rest ws := by
          intro hown
          rw [hown] at hf
          have : ∀ (cs : Cons) (ts : Mems) (vs : List (Option Val)), cs.easyB ts = true → HasMems ts vs → MeetsAll cs vs := fun cs ts vs h1 h2 => by
            have := easy_meets (.seq cs) (.seq [] ts) (.seq vs) h1 ⟨vs, rfl, h2⟩
            exact this vs rfl
          exact this _ _ _ hf.2 hw
        cases o with
        | none =>
          refine ⟨by simp, ?_⟩
          cases own with
          | false => exact easy rfl
          | true =>
            simp only [checkSeq] at hc
            by_cases ho : opt = true
            · rw [if_pos ho] at hc; exact (ih2 nul).1 _ _ _ hf.2 hw hc
            · rw [if_neg ho] at hc; cases hc
        | some x =>
          simp only [checkSeq] at hc
          cases own with
          | false =>
            refine ⟨fun y e => ?_, easy rfl⟩
            simp only [List.head?_cons, Option.some.injEq] at e
            subst e
            exact ih1 _ _ _ hf.1 (hx _ rfl) (by simpa using hc)
          | true =>
            rw [if_pos rfl] at hc
            cases h1 : check (nul.at j) c x with
            | pass =>
              rw [h1] at hc
              refine ⟨fun y e => ?_, (ih2 nul).1 _ _ _ hf.2 hw hc⟩
              simp only [List.head?_cons, Option.some.injEq] at e
              subst e
              exact ih1 _ _ _ hf.1 (hx _ rfl) h1
            | _ => rw [h1] at hc; cases hc
    · cases ts with
      | nil => simp [Cons.fullAltB] at hf
      | cons h ty ts =>
        simp only [Cons.fullAltB, Bool.and_eq_true] at hf
        cases i with
        | zero => simp only [checkAlt] at hc; exact ih1 _ _ _ hf.1 hv hc
        | succ i => simp only [checkAlt] at hc; exact (ih2 nul).2 _ _ _ hf.2 hv hc

end Verif.Asn
