import Verif.Mft.SpecTime
namespace Verif.Mft
open Verif.Res (Byte)

theorem G.ok_bind {α β} (a : α) (f : α → G β) : (G.ok a >>= f) = f a := rfl
theorem G.garbage_bind {α β} (f : α → G β) : (G.garbage >>= f) = .garbage := rfl
theorem G.oob_bind {α β} (f : α → G β) : (G.oob >>= f) = .oob := rfl

theorem G.bind_ok {α β} {x : G α} {f : α → G β} {b : β} (h : x >>= f = .ok b) : ∃ a, x = .ok a ∧ f a = .ok b := by
  cases x with
  | ok a => exact ⟨a, rfl, h⟩
  | garbage => cases h
  | oob => cases h

/-- A decimal digit. -/
abbrev Dig (x : Byte) : Prop := 0x30 ≤ x.toNat ∧ x.toNat ≤ 0x39

theorem isDigit_iff (b : Byte) : isDigit b = true ↔ Dig b := by
  unfold isDigit
  simp only [decide_eq_true_eq, BitVec.le_def]
  rfl

theorem notDig_iff (b : Byte) : (b < 0x30 ∨ 0x39 < b) ↔ ¬ Dig b := by
  simp only [BitVec.lt_def]
  rw [show (0x30 : Byte).toNat = 48 from rfl, show (0x39 : Byte).toNat = 57 from rfl]
  unfold Dig
  omega

theorem b2f_cons (v : Nat) (b : Byte) (s : List Byte) : b2f v (b :: s) = if Dig b then .ok (v * 10 + (b.toNat - 0x30), s) else .garbage := by
  unfold b2f
  simp only
  by_cases h : Dig b
  · rw [if_pos h, if_neg (by rw [notDig_iff]; exact fun h' => h' h)]
  · rw [if_neg h, if_pos ((notDig_iff b).2 h)]

theorem b2fs_ok : ∀ (n v : Nat) (s : List Byte) (v' : Nat) (s' : List Byte), b2fs n v s = .ok (v', s') ↔
    ∃ ds, s = ds ++ s' ∧ ds.length = n ∧ (∀ x ∈ ds, Dig x) ∧ v' = ds.foldl (fun v x => v * 10 + (x.toNat - 0x30)) v := by
  intro n
  induction n with
  | zero =>
    intro v s v' s'
    unfold b2fs
    constructor
    · intro h; cases h; exact ⟨[], rfl, rfl, by simp, rfl⟩
    · rintro ⟨ds, rfl, hl, -, rfl⟩
      have := List.length_eq_zero_iff.1 hl
      subst this; rfl
  | succ n ih =>
    intro v s v' s'
    unfold b2fs
    cases s with
    | nil =>
      constructor
      · intro h; cases h
      · rintro ⟨ds, h, hl, -⟩
        have := List.append_eq_nil_iff.1 h.symm
        rw [this.1] at hl; cases hl
    | cons b s =>
      rw [b2f_cons]
      by_cases h : Dig b
      · rw [if_pos h, G.ok_bind]
        simp only
        rw [ih]
        constructor
        · rintro ⟨ds, rfl, hl, hd, rfl⟩
          refine ⟨b :: ds, rfl, by simp [hl], ?_, rfl⟩
          intro x hx
          rcases List.mem_cons.1 hx with rfl | hx
          · exact h
          · exact hd x hx
        · rintro ⟨ds, e, hl, hd, rfl⟩
          cases ds with
          | nil => cases hl
          | cons d ds =>
            simp only [List.cons_append, List.cons.injEq] at e
            obtain ⟨rfl, rfl⟩ := e
            exact ⟨ds, rfl, by simpa using hl, fun x hx => hd x (List.mem_cons_of_mem _ hx), rfl⟩
      · rw [if_neg h, G.garbage_bind]
        constructor
        · intro h'; cases h'
        · rintro ⟨ds, e, hl, hd, rfl⟩
          cases ds with
          | nil => cases hl
          | cons d ds =>
            simp only [List.cons_append, List.cons.injEq] at e
            obtain ⟨rfl, -⟩ := e
            exact absurd (hd b (List.mem_cons_self ..)) h

theorem b2fs_safe : ∀ (n v : Nat) (s : List Byte), n ≤ s.length → b2fs n v s ≠ .oob := by
  intro n
  induction n with
  | zero => intro v s _ h; cases h
  | succ n ih =>
    intro v s hl
    cases s with
    | nil => simp at hl
    | cons b s =>
      unfold b2fs
      rw [b2f_cons]
      split
      · rw [G.ok_bind]
        exact ih _ _ (by simpa using hl)
      · rw [G.garbage_bind]; intro h; cases h

theorem b2opt_ok (s : List Byte) (v : Nat) (s' : List Byte) : b2opt s = .ok (v, s') ↔ ∃ ds, s = ds ++ s' ∧ Dec 2 v ds := by
  have key : b2opt s = .ok (v, s') ↔ b2fs 2 0 s = .ok (v, s') := by
    unfold b2opt
    cases s with
    | nil =>
      constructor
      · intro h; cases h
      · intro h; cases h
    | cons a s =>
      simp only
      unfold b2fs
      rw [b2f_cons]
      by_cases ha : Dig a
      · rw [if_pos ((isDigit_iff a).2 ha), if_pos ha, G.ok_bind]
        simp only [Nat.zero_mul, Nat.zero_add]
        unfold b2fs
        cases s with
        | nil =>
          constructor
          · intro h; cases h
          · intro h; cases h
        | cons b s =>
          simp only
          rw [b2f_cons]
          by_cases hb : Dig b
          · rw [if_pos hb, G.ok_bind]; rfl
          · rw [if_neg hb, G.garbage_bind]
      · rw [if_neg ha, G.garbage_bind, if_neg (by rw [isDigit_iff]; exact ha)]
  rw [key, b2fs_ok]
  rfl

theorem b2opt_safe (s : List Byte) : b2opt s ≠ .oob := by
  unfold b2opt
  split
  · intro h; cases h
  · split
    · split
      · intro h; cases h
      · rename_i h
        rename_i s _ _
        cases s with
        | nil => exact absurd rfl h
        | cons b s =>
          rw [b2f_cons]
          split <;> (intro h; cases h)
    · intro h; cases h

/-- What `skipFrac` skips. -/
def IsFrac (f : List Byte) : Prop := f = [] ∨ ∃ p ds, f = p :: ds ∧ (p = 0x2C ∨ p = 0x2E) ∧ ∀ x ∈ ds, Dig x

theorem dropWhile_split (p : Byte → Bool) (ds : List Byte) (h : ∀ x ∈ ds, p x = true) (z : Byte) (hz : p z = false) (r : List Byte) :
    (ds ++ z :: r).dropWhile p = z :: r := by
  induction ds with
  | nil => simp [hz]
  | cons d ds ih =>
    simp only [List.cons_append]
    rw [List.dropWhile_cons_of_pos (h d (List.mem_cons_self ..))]
    exact ih (fun x hx => h x (List.mem_cons_of_mem _ hx))

theorem dropWhile_out (p : Byte → Bool) (s : List Byte) : ∃ ds, s = ds ++ s.dropWhile p ∧ ∀ x ∈ ds, p x = true := by
  induction s with
  | nil => exact ⟨[], rfl, by simp⟩
  | cons a s ih =>
    by_cases h : p a = true
    · obtain ⟨ds, e, hd⟩ := ih
      rw [List.dropWhile_cons_of_pos h]
      refine ⟨a :: ds, by rw [List.cons_append, ← e], ?_⟩
      intro x hx
      rcases List.mem_cons.1 hx with rfl | hx
      · exact h
      · exact hd x hx
    · rw [List.dropWhile_cons_of_neg h]
      exact ⟨[], rfl, by simp⟩

theorem skipFrac_z (s r : List Byte) : skipFrac s = 0x5A :: r ↔ ∃ f, s = f ++ 0x5A :: r ∧ IsFrac f := by
  constructor
  · intro h
    unfold skipFrac at h
    split at h
    · cases h
    · rename_i b s
      split at h
      · rename_i hp
        obtain ⟨ds, e, hd⟩ := dropWhile_out isDigit s
        rw [h] at e
        exact ⟨b :: ds, by rw [e]; rfl, .inr ⟨b, ds, rfl, hp, fun x hx => (isDigit_iff x).1 (hd x hx)⟩⟩
      · exact ⟨[], h, .inl rfl⟩
  · rintro ⟨f, rfl, hf⟩
    rcases hf with rfl | ⟨p, ds, rfl, hp, hd⟩
    · rfl
    · unfold skipFrac
      simp only [List.cons_append]
      rw [if_pos hp]
      exact dropWhile_split _ _ (fun x hx => (isDigit_iff x).2 (hd x hx)) _ (by decide) _

theorem gt2time_iff (s : List Byte) (tm : Tm) : gt2time s = .ok tm ↔
    ∃ t rest y m d h mi sec, s = t ++ rest ∧ GtText t y m d h mi sec ∧ 1 ≤ m ∧ m ≤ 12 ∧ 1 ≤ d ∧ d ≤ 31 ∧ h ≤ 23 ∧ sec ≤ 60 ∧
      tm = ⟨(y : Int) - 1900, (m : Int) - 1, d, h, mi, sec⟩ := by
  unfold gt2time
  constructor
  · intro h
    split at h
    · cases h
    · obtain ⟨⟨y, s1⟩, h1, g1⟩ := G.bind_ok h
      obtain ⟨⟨m, s2⟩, h2, g2⟩ := G.bind_ok g1
      obtain ⟨⟨d, s3⟩, h3, g3⟩ := G.bind_ok g2
      obtain ⟨⟨hh, s4⟩, h4, g4⟩ := G.bind_ok g3
      obtain ⟨⟨mi, s5⟩, h5, g5⟩ := G.bind_ok g4
      obtain ⟨⟨sec, s6⟩, h6, g6⟩ := G.bind_ok g5
      obtain ⟨b1, rfl, d1⟩ := (b2fs_ok _ _ _ _ _).1 h1
      obtain ⟨b2, rfl, d2⟩ := (b2fs_ok _ _ _ _ _).1 h2
      obtain ⟨b3, rfl, d3⟩ := (b2fs_ok _ _ _ _ _).1 h3
      obtain ⟨b4, rfl, d4⟩ := (b2fs_ok _ _ _ _ _).1 h4
      obtain ⟨b5, rfl, d5⟩ := (b2opt_ok _ _ _).1 h5
      obtain ⟨b6, rfl, d6⟩ := (b2opt_ok _ _ _).1 h6
      simp only at g6
      split at g6
      · cases g6
      · split at g6
        · cases g6
        · rename_i z rest hz
          split at g6
          · cases g6
          · rename_i hzz
            split at g6
            · cases g6
            · rename_i hr
              have hzz : z = 0x5A := by simpa using hzz
              subst hzz
              obtain ⟨f, rfl, hf⟩ := (skipFrac_z _ _).1 hz
              cases g6
              refine ⟨b1 ++ b2 ++ b3 ++ b4 ++ b5 ++ b6 ++ f ++ [0x5A], rest, y, m, d, hh, mi, sec, by simp,
                ⟨b1, b2, b3, b4, b5, b6, f, rfl, d1, d2, d3, d4, d5, d6, hf⟩, ?_, ?_, ?_, ?_, ?_, ?_, rfl⟩ <;> omega
  · rintro ⟨t, rest, y, m, d, h, mi, sec, rfl, ⟨b1, b2, b3, b4, b5, b6, f, rfl, d1, d2, d3, d4, d5, d6, hf⟩, hm1, hm2, hd1, hd2, hh, hs, rfl⟩
    rw [if_neg (by simp only [List.length_append, d1.1, d2.1, d3.1, d4.1]; omega)]
    have e1 : b2fs 4 0 (b1 ++ b2 ++ b3 ++ b4 ++ b5 ++ b6 ++ f ++ [0x5A] ++ rest) = .ok (y, b2 ++ (b3 ++ (b4 ++ (b5 ++ (b6 ++ (f ++ 0x5A :: rest)))))) :=
      (b2fs_ok _ _ _ _ _).2 ⟨b1, by simp, d1⟩
    rw [e1, G.ok_bind]
    simp only
    rw [(b2fs_ok 2 0 _ m _).2 ⟨b2, rfl, d2⟩, G.ok_bind]
    simp only
    rw [(b2fs_ok 2 0 _ d _).2 ⟨b3, rfl, d3⟩, G.ok_bind]
    simp only
    rw [(b2fs_ok 2 0 _ h _).2 ⟨b4, rfl, d4⟩, G.ok_bind]
    simp only
    rw [(b2opt_ok _ mi _).2 ⟨b5, rfl, d5⟩, G.ok_bind]
    simp only
    rw [(b2opt_ok _ sec _).2 ⟨b6, rfl, d6⟩, G.ok_bind]
    simp only
    split
    · rename_i e
      simp at e
    · rw [(skipFrac_z _ _).2 ⟨f, rfl, hf⟩]
      simp only
      rw [if_neg (by simp), if_neg (by omega)]

theorem gt2time_safe (s : List Byte) : gt2time s ≠ .oob := by
  unfold gt2time
  split
  · intro h; cases h
  · rename_i hl
    intro h
    cases h1 : b2fs 4 0 s with
    | oob => exact b2fs_safe _ _ _ (by omega) h1
    | garbage => rw [h1] at h; cases h
    | ok r1 =>
      obtain ⟨y, s1⟩ := r1
      rw [h1, G.ok_bind] at h
      obtain ⟨b1, rfl, l1, -⟩ := (b2fs_ok _ _ _ _ _).1 h1
      simp only [List.length_append] at hl
      cases h2 : b2fs 2 0 s1 with
      | oob => exact b2fs_safe _ _ _ (by omega) h2
      | garbage => simp only [h2] at h; cases h
      | ok r2 =>
        obtain ⟨m, s2⟩ := r2
        simp only [h2] at h
        rw [G.ok_bind] at h
        obtain ⟨b2, rfl, l2, -⟩ := (b2fs_ok _ _ _ _ _).1 h2
        simp only [List.length_append] at hl
        cases h3 : b2fs 2 0 s2 with
        | oob => exact b2fs_safe _ _ _ (by omega) h3
        | garbage => simp only [h3] at h; cases h
        | ok r3 =>
          obtain ⟨d, s3⟩ := r3
          simp only [h3] at h
          rw [G.ok_bind] at h
          obtain ⟨b3, rfl, l3, -⟩ := (b2fs_ok _ _ _ _ _).1 h3
          simp only [List.length_append] at hl
          cases h4 : b2fs 2 0 s3 with
          | oob => exact b2fs_safe _ _ _ (by omega) h4
          | garbage => simp only [h4] at h; cases h
          | ok r4 =>
            obtain ⟨hh, s4⟩ := r4
            simp only [h4] at h
            rw [G.ok_bind] at h
            cases h5 : b2opt s4 with
            | oob => exact b2opt_safe _ h5
            | garbage => simp only [h5] at h; cases h
            | ok r5 =>
              obtain ⟨mi, s5⟩ := r5
              simp only [h5] at h
              rw [G.ok_bind] at h
              cases h6 : b2opt s5 with
              | oob => exact b2opt_safe _ h6
              | garbage => simp only [h6] at h; cases h
              | ok r6 =>
                obtain ⟨sec, s6⟩ := r6
                simp only [h6] at h
                rw [G.ok_bind] at h
                simp only at h
                split at h
                · cases h
                · split at h
                  · cases h
                  · split at h
                    · cases h
                    · split at h <;> cases h

end Verif.Mft
