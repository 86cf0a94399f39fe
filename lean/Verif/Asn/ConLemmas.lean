import Verif.Asn.SpecCon
import Verif.Asn.Check
import Verif.Mft.TimeLemmas
/-
The checks of the constraints do not go wrong.
-/
namespace Verif.Asn
open Verif.Res (Byte)

theorem strVal_hasTy {k : StrKind} {ls : List (List Byte)} {v : Val} {tags all : List Tag} (hk : k ≠ .any) (h : StrVal k ls v) : HasTy (.str k tags all) v := by
  cases h with
  | octets => exact ⟨_, rfl⟩
  | empty h1 h2 => exact ⟨_, _, rfl, by omega, fun _ => rfl⟩
  | bits h1 h2 h3 h4 => exact ⟨_, _, rfl, h2, by simp⟩

theorem ber_hasTy (ty : Ty) : ∀ (g : Tagging) (v : Val) (b : List Byte), Ber ty g v b → HasTy ty v := by
  induction ty using Ty.rec
    (motive_2 := fun ms => (∀ (vs : List (Option Val)) (c : List Byte), BerMems ms vs c → HasMems ms vs) ∧
      (∀ (i : Nat) (v : Val) (c : List Byte), BerAlts ms i v c → ∃ j x, v = .alt (i + j) x ∧ HasAlt ms j x)) with
  | prim k tags =>
    intro g v b h
    simp only [Ber] at h
    obtain ⟨c, -, h⟩ := h
    cases k with
    | plain => exact ⟨c, h⟩
    | null => exact h.2
    | bool => rcases h with ⟨-, h⟩ | ⟨_, x, _, -, -, -, h⟩ <;> exact ⟨_, h⟩
  | str k tags all =>
    intro g v b h
    cases k with
    | any => cases g <;> simp only [Ber] at h
             · exact ⟨_, h.1⟩
             · exact ⟨_, h.1⟩
             · obtain ⟨c, -, -, h, -⟩ := h; exact ⟨_, h⟩
    | octets => simp only [Ber] at h; obtain ⟨ls, -, h⟩ := h; exact strVal_hasTy (by simp) h
    | bits => simp only [Ber] at h; obtain ⟨ls, -, h⟩ := h; exact strVal_hasTy (by simp) h
  | seq tags ms ih =>
    intro g v b h
    simp only [Ber] at h
    obtain ⟨c, vs, -, rfl, h⟩ := h
    exact ⟨vs, rfl, ih.1 _ _ h⟩
  | setOf tags tag el ih =>
    intro g v b h
    simp only [Ber] at h
    obtain ⟨cs, vs, -, rfl, h⟩ := h
    refine ⟨vs, rfl, fun x hx => ?_⟩
    clear b
    induction h with
    | nil => cases hx
    | cons h1 _ ih2 =>
      rcases List.mem_cons.1 hx with rfl | hx
      · exact ih _ _ _ h1
      · exact ih2 hx
  | choice tags as ih =>
    intro g v b h
    simp only [Ber] at h
    obtain ⟨c, constr, -, h⟩ := h
    obtain ⟨j, x, rfl, hx⟩ := ih.2 _ _ _ h
    exact ⟨j, x, by simp, hx⟩
  | nil => exact ⟨fun vs c h => h.1, fun i v c h => h.elim⟩
  | cons h ty rest ih1 ih2 =>
    refine ⟨fun vs c hb => ?_, fun i v c hb => ?_⟩
    · simp only [BerMems] at hb
      rcases hb with ⟨ho, ws, rfl, hb⟩ | ⟨x, ws, d, e, rfl, -, hx, hb⟩
      · exact ⟨none, ws, rfl, fun _ => ho, by simp, ih2.1 _ _ hb⟩
      · exact ⟨some x, ws, rfl, by simp, fun y hy => by cases hy; exact ih1 _ _ _ hx, ih2.1 _ _ hb⟩
    · simp only [BerAlts] at hb
      rcases hb with ⟨x, rfl, hx⟩ | hb
      · exact ⟨0, x, by simp, ih1 _ _ _ hx⟩
      · obtain ⟨j, x, rfl, hx⟩ := ih2.2 _ _ _ hb
        exact ⟨j + 1, x, by congr 1; omega, hx⟩

mutual
/-- The constraint is one for values of the type, and abort() is not reached. -/
def Con.forB : Con → Ty → Bool
  | .none, _ => true
  | .bits, .str .bits _ _ => true
  | .ia5, .str .octets _ _ => true
  | .oid, .prim .plain _ => true
  | .gtime, .str .octets _ _ => true
  | .size _ _, .str .octets _ _ => true
  | .nonneg, .prim .plain _ => true
  | .filled c, .setOf t tag el => c.forB (.setOf t tag el)
  | .same c, ty => c.forB ty
  | .seq ms, .seq _ ts => ms.seqB ts
  | .setOf c, .setOf _ _ el => c.forB el
  | .choice as, .choice _ ts => as.altB ts
  | _, _ => false

def Cons.seqB : Cons → Mems → Bool
  | .nil, .nil => true
  | .cons opt own c rest, .cons h ty ts => h.opt == opt && c.forB ty && ((!own && !opt) || rest.seqB ts)
  | _, _ => false

def Cons.altB : Cons → Mems → Bool
  | .nil, .nil => true
  | .cons _ _ c rest, .cons _ ty ts => c.forB ty && rest.altB ts
  | _, _ => false
end

def Chk.Ends (r : Chk) : Prop := r = .pass ∨ r = .fail

theorem checkAll_ends {f : Nat → Val → Chk} : ∀ {i : Nat} {l : List Val}, (∀ i, ∀ x ∈ l, (f i x).Ends) → (checkAll f i l).Ends
  | _, [], _ => Or.inl rfl
  | i, x :: l, h => by
    have hx := h i x (by simp)
    simp only [checkAll]
    rcases hx with hx | hx
    · rw [hx]; exact checkAll_ends fun i y hy => h i y (by simp [hy])
    · rw [hx]; exact Or.inr rfl

theorem ite_ends {p : Prop} [Decidable p] {a b : Chk} (ha : a.Ends) (hb : b.Ends) : (if p then a else b).Ends := by
  by_cases h : p
  · rwa [if_pos h]
  · rwa [if_neg h]

theorem fail_ends : Chk.fail.Ends := Or.inr rfl
theorem pass_ends : Chk.pass.Ends := Or.inl rfl

theorem check_ends (nul : Nul) (c : Con) : ∀ (ty : Ty) (v : Val), c.forB ty = true → HasTy ty v → (check nul c v).Ends := by
  induction c using Con.rec
    (motive_2 := fun cs => ∀ nul : Nul, (∀ (j : Nat) (ts : Mems) (vs : List (Option Val)), cs.seqB ts = true → HasMems ts vs → (checkSeq nul j cs vs).Ends) ∧
      (∀ (ts : Mems) (i : Nat) (v : Val), cs.altB ts = true → HasAlt ts i v → (checkAlt nul cs i v).Ends)) generalizing nul with
  | none => intro ty v _ _; simp only [check]; exact pass_ends
  | bits =>
    intro ty v hf hv
    cases ty with
    | str k _ _ =>
      cases k with
      | bits =>
        obtain ⟨b, u, rfl, -, -⟩ := hv
        simp only [check]
        exact ite_ends (ite_ends fail_ends pass_ends) (ite_ends fail_ends pass_ends)
      | _ => simp [Con.forB] at hf
    | _ => simp [Con.forB] at hf
  | ia5 =>
    intro ty v hf hv
    cases ty with
    | str k _ _ =>
      cases k with
      | octets =>
        obtain ⟨b, rfl⟩ := hv
        simp only [check]
        exact ite_ends fail_ends (ite_ends fail_ends pass_ends)
      | _ => simp [Con.forB] at hf
    | _ => simp [Con.forB] at hf
  | oid =>
    intro ty v hf hv
    cases ty with
    | prim k _ =>
      cases k with
      | plain =>
        obtain ⟨b, rfl⟩ := hv
        simp only [check]
        exact ite_ends fail_ends pass_ends
      | _ => simp [Con.forB] at hf
    | _ => simp [Con.forB] at hf
  | gtime =>
    intro ty v hf hv
    cases ty with
    | str k _ _ =>
      cases k with
      | octets =>
        obtain ⟨b, rfl⟩ := hv
        simp only [check]
        cases hg : Mft.gt2time b with
        | ok t => exact pass_ends
        | garbage => exact fail_ends
        | oob => exact absurd hg (Mft.gt2time_safe b)
      | _ => simp [Con.forB] at hf
    | _ => simp [Con.forB] at hf
  | utime => intro ty v hf hv; simp [Con.forB] at hf
  | size lo hi =>
    intro ty v hf hv
    cases ty with
    | str k _ _ =>
      cases k with
      | octets =>
        obtain ⟨b, rfl⟩ := hv
        simp only [check]
        exact ite_ends pass_ends fail_ends
      | _ => simp [Con.forB] at hf
    | _ => simp [Con.forB] at hf
  | nonneg =>
    intro ty v hf hv
    cases ty with
    | prim k _ =>
      cases k with
      | plain =>
        obtain ⟨b, rfl⟩ := hv
        simp only [check]
        exact ite_ends fail_ends pass_ends
      | _ => simp [Con.forB] at hf
    | _ => simp [Con.forB] at hf
  | filled c ih =>
    intro ty v hf hv
    cases ty with
    | setOf t tag el =>
      obtain ⟨l, rfl, hl⟩ := hv
      simp only [check]
      simp only [Con.forB] at hf
      exact ite_ends (ih nul _ _ hf ⟨l, rfl, hl⟩) fail_ends
    | _ => simp [Con.forB] at hf
  | same c ih =>
    intro ty v hf hv
    simp only [check]
    simp only [Con.forB] at hf
    exact ih nul _ _ hf hv
  | seq ms ih =>
    intro ty v hf hv
    cases ty with
    | seq t ts =>
      obtain ⟨vs, rfl, hvs⟩ := hv
      simp only [check]
      simp only [Con.forB] at hf
      exact (ih nul).1 _ _ _ hf hvs
    | _ => simp [Con.forB] at hf
  | setOf c ih =>
    intro ty v hf hv
    cases ty with
    | setOf t tag el =>
      obtain ⟨l, rfl, hl⟩ := hv
      simp only [check]
      simp only [Con.forB] at hf
      exact checkAll_ends fun i x hx => ih _ _ _ hf (hl x hx)
    | _ => simp [Con.forB] at hf
  | choice as ih =>
    intro ty v hf hv
    cases ty with
    | choice t ts =>
      obtain ⟨i, x, rfl, hx⟩ := hv
      simp only [check]
      simp only [Con.forB] at hf
      exact (ih nul).2 _ _ _ hf hx
    | _ => simp [Con.forB] at hf
  | nil =>
    rename_i nul
    refine ⟨fun j ts vs hf hv => ?_, fun ts i v hf hv => ?_⟩
    · cases vs <;> simp only [checkSeq] <;> exact pass_ends
    · simp only [checkAlt]; exact fail_ends
  | cons opt own c rest ih1 ih2 =>
    rename_i nul
    refine ⟨fun j ts vs hf hv => ?_, fun ts i v hf hv => ?_⟩
    · cases ts with
      | nil => simp [Cons.seqB] at hf
      | cons h ty ts =>
        simp only [Cons.seqB, Bool.and_eq_true, Bool.or_eq_true, beq_iff_eq, Bool.not_eq_true'] at hf
        obtain ⟨⟨h1, h2⟩, h3⟩ := hf
        obtain ⟨o, ws, rfl, ho, hx, hw⟩ := hv
        cases o with
        | none =>
          have hopt : opt = true := by rw [← h1]; exact ho rfl
          simp only [checkSeq]
          rw [if_pos hopt]
          rcases h3 with h3 | h3
          · rw [hopt] at h3; exact absurd h3.2 (by simp)
          · exact (ih2 nul).1 _ _ _ h3 hw
        | some x =>
          have e := ih1 (nul.at j) _ _ h2 (hx x rfl)
          simp only [checkSeq]
          cases own with
          | false => simpa using e
          | true =>
            rw [if_pos rfl]
            rcases h3 with h3 | h3
            · exact absurd h3.1 (by simp)
            · rcases e with e | e
              · rw [e]; exact (ih2 nul).1 _ _ _ h3 hw
              · rw [e]; exact fail_ends
    · cases ts with
      | nil => simp [Cons.altB] at hf
      | cons h ty ts =>
        simp only [Cons.altB, Bool.and_eq_true] at hf
        cases i with
        | zero => simp only [checkAlt]; exact ih1 nul _ _ hf.1 hv
        | succ i => simp only [checkAlt]; exact (ih2 nul).2 _ _ _ hf.2 hv

end Verif.Asn
