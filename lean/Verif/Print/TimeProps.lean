import Verif.Print.AsnProps
/-
C149: the times of signed objects, in print mode.
-/
namespace Verif.Print
open Verif.Res (Byte)
open Verif.Mft (Tm gt2time gt2time_iff gt2time_safe GtText Real Dec)

/-- A UTCTime, as RFC 5280 wants it: YYMMDDhhmmssZ. -/
def UtText (s : List Byte) (yy m d h mi sec : Nat) : Prop :=
  ∃ b1 b2 b3 b4 b5 b6, s = b1 ++ b2 ++ b3 ++ b4 ++ b5 ++ b6 ++ [0x5A] ∧ Dec 2 yy b1 ∧ Dec 2 m b2 ∧ Dec 2 d b3 ∧ Dec 2 h b4 ∧ Dec 2 mi b5 ∧ Dec 2 sec b6

/-- RFC 5280, 4.1.2.5.1: from 50 on it's the 20th century. -/
def century (yy : Nat) : Nat := if yy ≥ 50 then 1900 + yy else 2000 + yy

theorem gt2time_of_text {s : List Byte} {y m d h mi sec : Nat} (ht : GtText s y m d h mi sec) (hr : Real y m d h mi sec) :
    gt2time s = .ok ⟨(y : Int) - 1900, (m : Int) - 1, d, h, mi, sec⟩ := by
  obtain ⟨h1, h2, h3, h4, h5, h6, h7, h8, h9, h10⟩ := hr
  have hd : (d : Int) ≤ 31 := by
    unfold Mft.monthDays at h4
    split at h4
    · split at h4 <;> omega
    · split at h4 <;> omega
  exact (gt2time_iff _ _).2 ⟨s, [], y, m, d, h, mi, sec, by simp, ht, by omega, by omega, by omega, by omega, by omega, by omega, rfl⟩

/-- C149. A GeneralizedTime YYYYMMDDhhmmss[.fff]Z that is a real time is shown as "YYYY-MM-DD hh:mm:ssZ", with the same numbers. -/
theorem C149_partial (e : Env) (s : List Byte) (y m d h mi sec : Nat) (ht : GtText s y m d h mi sec) (hr : Real y m d h mi sec) :
    Prints (gtJson s) e (text e (stamp y m d h mi sec)) := by
  have hg := gt2time_of_text ht hr
  have := prints_gt e s
  unfold gtDoc at this
  rw [hg] at this
  simpa using this

theorem dec_cons {n v : Nat} {a : Byte} {b : List Byte} (h : Dec n v (a :: b)) : 0x30 ≤ a.toNat ∧ a.toNat ≤ 0x39 := h.2.1 a (by simp)

/-- Two digits of a century in front of two digits. -/
theorem dec_four (c1 c2 : Byte) (h1 : 0x30 ≤ c1.toNat ∧ c1.toNat ≤ 0x39) (h2 : 0x30 ≤ c2.toNat ∧ c2.toNat ≤ 0x39) (yy : Nat) (b : List Byte) (h : Dec 2 yy b) :
    Dec 4 (((c1.toNat - 0x30) * 10 + (c2.toNat - 0x30)) * 100 + yy) ([c1, c2] ++ b) := by
  obtain ⟨hl, hd, hv⟩ := h
  match b, hl with
  | [x, z], _ =>
    refine ⟨rfl, ?_, ?_⟩
    · intro x hx
      simp only [List.cons_append, List.nil_append, List.mem_cons] at hx
      rcases hx with rfl | rfl | hx
      · exact h1
      · exact h2
      · exact hd x (by simpa using hx)
    · rw [hv]
      simp only [List.cons_append, List.nil_append, List.foldl_cons, List.foldl_nil]
      omega

/-- C149. A UTCTime that is a real time is shown in the same way, in the century RFC 5280 says; here, unless the year is from 1950 to 1959. -/
theorem C149_utc_partial (e : Env) (s : List Byte) (yy m d h mi sec : Nat) (ht : UtText s yy m d h mi sec) (hr : Real (century yy) m d h mi sec) (hy : yy < 50 ∨ 60 ≤ yy) :
    Prints (utcJson s) e (text e (stamp (century yy) m d h mi sec)) := by
  obtain ⟨b1, b2, b3, b4, b5, b6, rfl, d1, d2, d3, d4, d5, d6⟩ := ht
  have hlen : (b1 ++ b2 ++ b3 ++ b4 ++ b5 ++ b6 ++ [0x5A]).length = 13 := by
    simp [d1.1, d2.1, d3.1, d4.1, d5.1, d6.1]
  have hy1 : yy < 100 := by have := dec_lt d1; simpa using this
  obtain ⟨x, z, rfl⟩ : ∃ x z, b1 = [x, z] := by
    have := d1.1
    match b1, this with
    | [x, z], _ => exact ⟨x, z, rfl⟩
  have hx := dec_cons d1
  have hz : 0x30 ≤ z.toNat ∧ z.toNat ≤ 0x39 := d1.2.1 z (by simp)
  have hv : yy = (x.toNat - 0x30) * 10 + (z.toNat - 0x30) := by have := d1.2.2; simpa using this
  unfold utcJson utAsGt
  rw [if_neg (by rw [hlen]; omega)]
  show Prints (if _ ∨ 24 < ((if _ then _ else _) ++ _ : List Byte).length then crash else _) e _
  rw [if_neg (by
    rintro (h1 | h1)
    · cases h1
    · have h2 : ∀ (c : Prop) [Decidable c] (a b l : List Byte), a.length = 2 → b.length = 2 → ((if c then a else b) ++ l).length = l.length + 2 := by
        intro c _ a b l ha hb
        by_cases hc : c
        · rw [if_pos hc]; simp; omega
        · rw [if_neg hc]; simp; omega
      rw [h2 _ _ _ _ rfl rfl, hlen] at h1
      omega)]
  simp only [List.cons_append, List.headD_cons]
  have key : ∀ c1 c2 : Byte, (hc1 : 0x30 ≤ c1.toNat ∧ c1.toNat ≤ 0x39) → (hc2 : 0x30 ≤ c2.toNat ∧ c2.toNat ≤ 0x39) →
      ((c1.toNat - 0x30) * 10 + (c2.toNat - 0x30)) * 100 + yy = century yy →
      Prints (gtJson ([c1, c2] ++ (x :: z :: ([] ++ b2 ++ b3 ++ b4 ++ b5 ++ b6 ++ [0x5A])))) e (text e (stamp (century yy) m d h mi sec)) := by
    intro c1 c2 hc1 hc2 hc
    have d14 := dec_four c1 c2 hc1 hc2 yy [x, z] d1
    rw [hc] at d14
    exact C149_partial e _ _ _ _ _ _ _ ⟨[c1, c2] ++ [x, z], b2, b3, b4, b5, b6, [], by simp, d14, d2, d3, d4, d5, d6, .inl rfl⟩ hr
  by_cases h5 : x.toNat > 0x35
  · show Prints (gtJson ((if x.toNat > 0x35 then [0x31, 0x39] else [0x32, 0x30]) ++ _)) e _
    rw [if_pos h5]
    exact key 0x31 0x39 (by decide) (by decide) (by unfold century; rw [if_pos (by omega)]; simp)
  · show Prints (gtJson ((if x.toNat > 0x35 then [0x31, 0x39] else [0x32, 0x30]) ++ _)) e _
    rw [if_neg h5]
    exact key 0x32 0x30 (by decide) (by decide) (by unfold century; rw [if_neg (by omega)]; simp)

/-- C149. Whatever the text is, nothing undefined happens (and the assertion on the length holds), and if a time is shown, then the text begins with YYYYMMDDhhmmss, perhaps a fraction, and a Z, these are
the numbers that are shown, the month, the hour and the seconds are sensible, and the day isn't after 31. -/
theorem C149_only (e : Env) (s : List Byte) : gtJson s e ⟨0, 0⟩ ≠ .ub ∧
    ∀ j, Returns (gtJson s) e (some j) → ∃ t rest y m d h mi sec, s = t ++ rest ∧ GtText t y m d h mi sec ∧ 1 ≤ m ∧ m ≤ 12 ∧ 1 ≤ d ∧ d ≤ 31 ∧ h ≤ 23 ∧ sec ≤ 60 ∧
      j = .str (stamp y m d h mi sec) := by
  obtain ⟨r, s', h1, h2, _, _⟩ := prints_gt e s ⟨0, 0⟩
  refine ⟨by rw [h1]; simp, ?_⟩
  rintro j ⟨s2, hs⟩
  rw [hs] at h1
  injection h1 with h1 _
  have hj := h2 j h1.symm
  unfold gtDoc at hj
  cases hg : gt2time s with
  | oob => rw [hg] at hj; cases hj
  | garbage => rw [hg] at hj; cases hj
  | ok tm =>
    rw [hg] at hj
    obtain ⟨t, rest, y, m, d, h, mi, sec, h1, h2, h3, h4, h5, h6, h7, h8, rfl⟩ := (gt2time_iff s tm).1 hg
    refine ⟨t, rest, y, m, d, h, mi, sec, h1, h2, h3, h4, h5, h6, h7, h8, ?_⟩
    have hj : text e (stamp ((y : Int) - 1900 + 1900).toNat ((m : Int) - 1 + 1).toNat (d : Int).toNat (h : Int).toNat (mi : Int).toNat (sec : Int).toNat) = some j := hj
    simp only [Int.sub_add_cancel, Int.toNat_natCast] at hj
    unfold text at hj
    split at hj
    · exact (Option.some.inj hj).symm
    · cases hj

theorem C149_utc_safe (e : Env) (s : List Byte) : utcJson s e ⟨0, 0⟩ ≠ .ub := by
  obtain ⟨r, s', h1, _, _, _⟩ := prints_utc e s ⟨0, 0⟩
  rw [h1]; simp

/-- C149 is false: a UTCTime of 1955 is shown as one of 2055, and things that aren't times are shown as if they were: 30 February at 00:99. -/
theorem C149_refuted :
    (UtText (lit "550101000000Z") 55 1 1 0 0 0 ∧ Real (century 55) 1 1 0 0 0 ∧ Returns (utcJson (lit "550101000000Z")) demoEnv (some (.str (lit "2055-01-01 00:00:00Z"))) ∧
      some (J.str (lit "2055-01-01 00:00:00Z")) ≠ text demoEnv (stamp (century 55) 1 1 0 0 0)) ∧
    (Returns (gtJson (lit "20240230009900Z")) demoEnv (some (.str (lit "2024-02-30 00:99:00Z"))) ∧ ∀ t, ¬ Mft.Denotes (lit "20240230009900Z") t) := by
  refine ⟨⟨?_, by decide, ⟨_, rfl⟩, ?_⟩, ⟨_, rfl⟩, ?_⟩
  · exact ⟨lit "55", lit "01", lit "01", lit "00", lit "00", lit "00", by decide, ⟨by decide, by decide, by decide⟩, ⟨by decide, by decide, by decide⟩, ⟨by decide, by decide, by decide⟩,
      ⟨by decide, by decide, by decide⟩, ⟨by decide, by decide, by decide⟩, ⟨by decide, by decide, by decide⟩⟩
  · intro h
    have h : some (J.str (lit "2055-01-01 00:00:00Z")) = some (.str (lit "1955-01-01 00:00:00Z")) := h
    injection h with h
    injection h with h
    exact absurd h (by decide)
  · rintro t ⟨y, m, d, h, mi, sec, ⟨b1, b2, b3, b4, b5, b6, f, hs, d1, d2, d3, d4, d5, d6, hf⟩, hr, _⟩
    have hg := gt2time_of_text ⟨b1, b2, b3, b4, b5, b6, f, hs, d1, d2, d3, d4, d5, d6, hf⟩ hr
    have hc : gt2time (lit "20240230009900Z") = .ok ⟨124, 1, 30, 0, 99, 0⟩ := by decide +kernel
    rw [hc] at hg
    injection hg with hg
    have : (99 : Int) = mi := congrArg Tm.min hg
    obtain ⟨_, _, _, _, _, _, _, hm, _⟩ := hr
    omega

/-- The hypotheses of C149 can be met. -/
example : GtText (lit "20240229123059.5Z") 2024 2 29 12 30 59 ∧ Real 2024 2 29 12 30 59 ∧
    Returns (gtJson (lit "20240229123059.5Z")) demoEnv (some (.str (lit "2024-02-29 12:30:59Z"))) ∧
    UtText (lit "991231235959Z") 99 12 31 23 59 59 ∧ Real (century 99) 12 31 23 59 59 ∧ Returns (utcJson (lit "991231235959Z")) demoEnv (some (.str (lit "1999-12-31 23:59:59Z"))) := by
  refine ⟨⟨lit "2024", lit "02", lit "29", lit "12", lit "30", lit "59", lit ".5", by decide, ⟨by decide, by decide, by decide⟩, ⟨by decide, by decide, by decide⟩, ⟨by decide, by decide, by decide⟩,
      ⟨by decide, by decide, by decide⟩, ⟨by decide, by decide, by decide⟩, ⟨by decide, by decide, by decide⟩, .inr ⟨0x2E, [0x35], by decide, .inr rfl, by decide⟩⟩, by decide, ⟨_, rfl⟩, ?_, by decide, ⟨_, rfl⟩⟩
  exact ⟨lit "99", lit "12", lit "31", lit "23", lit "59", lit "59", by decide, ⟨by decide, by decide, by decide⟩, ⟨by decide, by decide, by decide⟩, ⟨by decide, by decide, by decide⟩,
      ⟨by decide, by decide, by decide⟩, ⟨by decide, by decide, by decide⟩, ⟨by decide, by decide, by decide⟩⟩

end Verif.Print
