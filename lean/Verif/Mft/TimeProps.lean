import Verif.Mft.TimeLemmas
/-
C50, C88: dates of manifests.
-/
namespace Verif.Mft
open Verif.Res (Byte)

theorem monthDays_pos (y m : Int) : 28 ≤ monthDays y m := by
  unfold monthDays
  split
  · split <;> omega
  · split <;> omega

theorem daysBefore_mono (y : Int) {a b : Nat} (h : a ≤ b) : daysBefore y a ≤ daysBefore y b := by
  induction h with
  | refl => exact Int.le_refl _
  | @step k h ih =>
    have := monthDays_pos y (k + 1)
    show daysBefore y a ≤ daysBefore y k + monthDays y (k + 1)
    omega

theorem daysBefore_twelve (y : Int) : daysBefore y 12 = if Leap y then 366 else 365 := by
  simp only [daysBefore, monthDays]
  by_cases h : Leap y
  · simp [h]
  · simp [h]

theorem year_succ (y : Int) : daysBeforeYear (y + 1) = daysBeforeYear y + daysBefore y 12 := by
  rw [daysBefore_twelve]
  unfold daysBeforeYear
  by_cases h : Leap y
  · rw [if_pos h]; unfold Leap at h; omega
  · rw [if_neg h]; unfold Leap at h; omega

theorem year_mono {y y' : Int} (h : y ≤ y') : daysBeforeYear y ≤ daysBeforeYear y' := by
  unfold daysBeforeYear
  omega

/-- The day, in the calendar. -/
def dayIdx (y m d : Int) : Int := daysBeforeYear y + daysBefore y (m - 1).toNat + (d - 1)

theorem day_in_year {y m d : Int} (hm : 1 ≤ m) (hm' : m ≤ 12) (hd : d ≤ monthDays y m) : dayIdx y m d < daysBeforeYear (y + 1) := by
  rw [year_succ]
  unfold dayIdx
  have h1 : daysBefore y ((m - 1).toNat + 1) ≤ daysBefore y 12 := daysBefore_mono y (by omega)
  unfold daysBefore at h1
  rw [show (((m - 1).toNat : Int) + 1) = m by omega] at h1
  have : (daysBefore y ((m - 1).toNat) + monthDays y m ≤ daysBefore y 12) := h1
  omega

theorem day_from_year {y m d : Int} (hd : 1 ≤ d) : daysBeforeYear y ≤ dayIdx y m d := by
  unfold dayIdx
  have : daysBefore y 0 ≤ daysBefore y (m - 1).toNat := daysBefore_mono y (Nat.zero_le _)
  have h0 : daysBefore y 0 = 0 := rfl
  omega

/-- Days are ordered like their dates. -/
theorem day_lt {y m d y' m' d' : Int} (hm : 1 ≤ m) (hm' : m ≤ 12) (hd : d ≤ monthDays y m) (hd' : 1 ≤ d')
    (h : y < y' ∨ y = y' ∧ (m < m' ∨ m = m' ∧ d < d')) : dayIdx y m d < dayIdx y' m' d' := by
  rcases h with h | ⟨rfl, h | ⟨rfl, h⟩⟩
  · have h1 := day_in_year hm hm' hd
    have h2 := @day_from_year y' m' d' hd'
    have h3 := @year_mono (y + 1) y' (by omega)
    omega
  · unfold dayIdx
    have h1 : daysBefore y ((m - 1).toNat + 1) ≤ daysBefore y (m' - 1).toNat := daysBefore_mono y (by omega)
    unfold daysBefore at h1
    rw [show (((m - 1).toNat : Int) + 1) = m by omega] at h1
    have : (daysBefore y ((m - 1).toNat) + monthDays y m ≤ daysBefore y (m' - 1).toNat) := by
      cases e : (m' - 1).toNat with
      | zero => omega
      | succ k =>
        rw [e] at h1
        exact h1
    omega
  · unfold dayIdx
    omega

/-- One field of the comparison. -/
def step (x y r : Int) : Int := if x < y then -1 else if x > y then 1 else r

theorem tmCmp_step (a b : Tm) : tmCmp a b = step a.year b.year (step a.mon b.mon (step a.mday b.mday (step a.hour b.hour
    (step a.min b.min (step a.sec b.sec 0))))) := rfl

theorem step_lt (x y r : Int) : step x y r < 0 ↔ x < y ∨ x = y ∧ r < 0 := by
  unfold step
  split
  · omega
  · split <;> omega

theorem step_zero (x y r : Int) : step x y r = 0 ↔ x = y ∧ r = 0 := by
  unfold step
  split
  · omega
  · split <;> omega

theorem step_neg (x y r : Int) : step x y r = - step y x (- r) := by
  unfold step
  by_cases h1 : x < y
  · have h2 : ¬ y < x := by omega
    simp [h1, h2]
  · by_cases h2 : y < x
    · simp [h1, h2]
    · simp [h1, h2]

theorem tmCmp_lt {a b : Tm} {s t : Int} (ha : IsAt a s) (hb : IsAt b t) (h : tmCmp a b < 0) : s < t := by
  obtain ⟨⟨a1, a2, a3, a4, a5, a6, a7, a8, a9, a10⟩, rfl⟩ := ha
  obtain ⟨⟨b1, b2, b3, b4, b5, b6, b7, b8, b9, b10⟩, rfl⟩ := hb
  have hl : (a.year < b.year ∨ a.year = b.year ∧ (a.mon < b.mon ∨ a.mon = b.mon ∧ a.mday < b.mday)) ∨
      (a.year = b.year ∧ a.mon = b.mon ∧ a.mday = b.mday ∧
        (a.hour < b.hour ∨ a.hour = b.hour ∧ (a.min < b.min ∨ a.min = b.min ∧ a.sec < b.sec))) := by
    rw [tmCmp_step] at h
    simp only [step_lt] at h
    omega
  unfold instant
  rcases hl with hl | ⟨e1, e2, e3, hl⟩
  · have := @day_lt (a.year + 1900) (a.mon + 1) a.mday (b.year + 1900) (b.mon + 1) b.mday a1 a2 a4 b3 (by omega)
    unfold dayIdx at this
    omega
  · rw [e1, e2, e3]
    omega

theorem tmCmp_neg (a b : Tm) : tmCmp a b = - tmCmp b a := by
  rw [tmCmp_step, tmCmp_step, step_neg a.year, step_neg a.mon, step_neg a.mday, step_neg a.hour, step_neg a.min, step_neg a.sec]
  simp only [Int.neg_neg, Int.neg_zero]

theorem tmCmp_eq {a b : Tm} (h : tmCmp a b = 0) : a = b := by
  rw [tmCmp_step] at h
  simp only [step_zero] at h
  cases a; cases b
  simp only at h
  simp only [Tm.mk.injEq]
  omega

/-- The comparison is that of the points in time. -/
theorem tmCmp_iff {a b : Tm} {s t : Int} (ha : IsAt a s) (hb : IsAt b t) : (tmCmp a b < 0 ↔ s < t) ∧ (tmCmp a b > 0 ↔ t < s) := by
  have h1 := tmCmp_lt ha hb
  have h2 := tmCmp_lt hb ha
  have h3 := tmCmp_neg a b
  have h4 : tmCmp a b = 0 → s = t := by
    intro h
    have := tmCmp_eq h
    subst this
    rw [ha.2, hb.2]
  constructor <;> constructor <;> intro h <;> omega

theorem gt2time_denotes {s : List Byte} {t : Int} (h : Denotes s t) : ∃ tm, gt2time s = .ok tm ∧ IsAt tm t := by
  obtain ⟨y, m, d, hh, mi, sec, ht, hr, rfl⟩ := h
  have hmd : monthDays y m ≤ 31 := by
    unfold monthDays
    split
    · split <;> omega
    · split <;> omega
  have hr' := hr
  obtain ⟨r1, r2, r3, r4, r5, r6, r7, r8, r9, r10⟩ := hr
  refine ⟨⟨(y : Int) - 1900, (m : Int) - 1, d, hh, mi, sec⟩,
    (gt2time_iff _ _).2 ⟨s, [], y, m, d, hh, mi, sec, by simp, ht, by omega, by omega, by omega, by omega, by omega, by omega, rfl⟩, ?_⟩
  unfold IsAt
  simp only [Int.sub_add_cancel]
  exact ⟨hr', trivial⟩

/-- **C50.** If the dates are proper ones, a manifest is in its time window if and only if its first date is not after the second, nor
in the future, and the second is not in the past or stale manifests are tolerated. -/
theorem C50_window {stale : Action} {now : Tm} {this next : List Byte} {n t0 t1 : Int} (hn : IsAt now n) (h0 : Denotes this t0)
    (h1 : Denotes next t1) :
    validateDates stale (some now) this next = .ok () ↔ t0 ≤ t1 ∧ t0 ≤ n ∧ (n ≤ t1 ∨ stale ≠ .error) := by
  obtain ⟨a, ea, ha⟩ := gt2time_denotes h0
  obtain ⟨b, eb, hb⟩ := gt2time_denotes h1
  have c1 := tmCmp_iff ha hb
  have c2 := tmCmp_iff hn ha
  have c3 := tmCmp_iff hn hb
  unfold validateDates
  simp only [ea, eb]
  by_cases k1 : tmCmp a b > 0
  · rw [if_pos k1]
    constructor
    · intro h; cases h
    · intro h; omega
  · rw [if_neg k1]
    by_cases k2 : tmCmp now a < 0
    · rw [if_pos k2]
      constructor
      · intro h; cases h
      · intro h; omega
    · rw [if_neg k2]
      by_cases k3 : tmCmp now b > 0
      · rw [if_pos k3]
        have : ¬ n ≤ t1 := by omega
        cases stale
        · exact ⟨fun _ => ⟨by omega, by omega, .inr (by decide)⟩, fun _ => rfl⟩
        · exact ⟨fun _ => ⟨by omega, by omega, .inr (by decide)⟩, fun _ => rfl⟩
        · constructor
          · intro h; cases h
          · rintro ⟨-, -, h | h⟩
            · omega
            · exact absurd rfl h
      · rw [if_neg k3]
        exact ⟨fun _ => ⟨by omega, by omega, .inl (by omega)⟩, fun _ => rfl⟩

/-- **C50, safety.** No date makes the code read out of its buffer; an unknown time is an error. -/
theorem C50_safe (stale : Action) (now : Option Tm) (this next : List Byte) :
    validateDates stale now this next ≠ .crash ∧ validateDates stale none this next ≠ .ok () := by
  unfold validateDates
  constructor
  · split
    · rename_i h; exact absurd h (gt2time_safe _)
    · intro h; cases h
    · split
      · rename_i h; exact absurd h (gt2time_safe _)
      · intro h; cases h
      · split
        · intro h; cases h
        · split
          · intro h; cases h
          · split
            · intro h; cases h
            · split
              · cases stale <;> (intro h; cases h)
              · intro h; cases h
  · split
    · intro h; cases h
    · intro h; cases h
    · split
      · intro h; cases h
      · intro h; cases h
      · split <;> (intro h; cases h)

/-- **C88, exactly.** The texts that are taken for dates: fourteen digits, a fraction perhaps, a Z, and then anything. The month, the
hour and the second are in their ranges, the day is up to 31. -/
theorem C88_exact (s : List Byte) : (∃ tm, gt2time s = .ok tm) ↔
    ∃ t rest y m d h mi sec, s = t ++ rest ∧ GtText t y m d h mi sec ∧ 1 ≤ m ∧ m ≤ 12 ∧ 1 ≤ d ∧ d ≤ 31 ∧ h ≤ 23 ∧ sec ≤ 60 := by
  constructor
  · rintro ⟨tm, h⟩
    obtain ⟨t, rest, y, m, d, hh, mi, sec, h1, h2, h3, h4, h5, h6, h7, h8, -⟩ := (gt2time_iff _ _).1 h
    exact ⟨t, rest, y, m, d, hh, mi, sec, h1, h2, h3, h4, h5, h6, h7, h8⟩
  · rintro ⟨t, rest, y, m, d, hh, mi, sec, h1, h2, h3, h4, h5, h6, h7, h8⟩
    exact ⟨_, (gt2time_iff _ _).2 ⟨t, rest, y, m, d, hh, mi, sec, h1, h2, h3, h4, h5, h6, h7, h8, rfl⟩⟩

/-- **C88, every proper date is accepted**, and stands for its point in time. -/
theorem C88_accepts {s : List Byte} {t : Int} (h : Denotes s t) : ∃ tm, gt2time s = .ok tm ∧ IsAt tm t := gt2time_denotes h

/-- Digits of a small number. -/
private def dg (n : Nat) : Byte := BitVec.ofNat 8 (0x30 + n)

def Ex.text (l : List Nat) : List Byte := l.map dg

/-- What is read is the only reading. -/
theorem dec_unique {n v v' : Nat} {b b' r r' : List Byte} (h : Dec n v b) (h' : Dec n v' b') (e : b ++ r = b' ++ r') : v = v' ∧ b = b' ∧ r = r' := by
  obtain ⟨rfl, rfl⟩ := List.append_inj e (h.1.trans h'.1.symm)
  exact ⟨h.2.2.trans h'.2.2.symm, rfl, rfl⟩

theorem gtText_unique {s s' r r' : List Byte} {y m d h mi sec y' m' d' h' mi' sec' : Nat} (a : GtText s y m d h mi sec)
    (b : GtText s' y' m' d' h' mi' sec') (e : s ++ r = s' ++ r') : y = y' ∧ m = m' ∧ d = d' ∧ h = h' ∧ mi = mi' ∧ sec = sec' := by
  obtain ⟨b1, b2, b3, b4, b5, b6, f, rfl, d1, d2, d3, d4, d5, d6, -⟩ := a
  obtain ⟨c1, c2, c3, c4, c5, c6, g, rfl, e1, e2, e3, e4, e5, e6, -⟩ := b
  simp only [List.append_assoc] at e
  obtain ⟨p1, -, e⟩ := dec_unique d1 e1 e
  obtain ⟨p2, -, e⟩ := dec_unique d2 e2 e
  obtain ⟨p3, -, e⟩ := dec_unique d3 e3 e
  obtain ⟨p4, -, e⟩ := dec_unique d4 e4 e
  obtain ⟨p5, -, e⟩ := dec_unique d5 e5 e
  obtain ⟨p6, -, e⟩ := dec_unique d6 e6 e
  exact ⟨p1, p2, p3, p4, p5, p6⟩

theorem Ex.gtText : ∀ y1 y2 y3 y4 m1 m2 d1 d2 h1 h2 i1 i2 s1 s2 : Fin 10,
    GtText (Ex.text [y1, y2, y3, y4, m1, m2, d1, d2, h1, h2, i1, i2, s1, s2] ++ [0x5A])
      (((y1 * 10 + y2 : Nat) * 10 + y3) * 10 + y4) (m1 * 10 + m2) (d1 * 10 + d2) (h1 * 10 + h2) (i1 * 10 + i2) (s1 * 10 + s2) := by
  have hd : ∀ x : Fin 10, 0x30 ≤ (dg x).toNat ∧ (dg x).toNat ≤ 0x39 ∧ (dg x).toNat - 0x30 = x := by decide
  have two : ∀ a b : Fin 10, Dec 2 (a * 10 + b) [dg a, dg b] := by
    intro a b
    refine ⟨rfl, ?_, ?_⟩
    · intro x hx
      simp only [List.mem_cons, List.not_mem_nil, or_false] at hx
      rcases hx with rfl | rfl <;> exact ⟨(hd _).1, (hd _).2.1⟩
    · simp only [List.foldl_cons, List.foldl_nil, (hd a).2.2, (hd b).2.2]; omega
  intro y1 y2 y3 y4 m1 m2 d1 d2 h1 h2 i1 i2 s1 s2
  refine ⟨[dg y1, dg y2, dg y3, dg y4], [dg m1, dg m2], [dg d1, dg d2], [dg h1, dg h2], [dg i1, dg i2], [dg s1, dg s2], [], rfl, ?_,
    two _ _, two _ _, two _ _, two _ _, two _ _, .inl rfl⟩
  refine ⟨rfl, ?_, ?_⟩
  · intro x hx
    simp only [List.mem_cons, List.not_mem_nil, or_false] at hx
    rcases hx with rfl | rfl | rfl | rfl <;> exact ⟨(hd _).1, (hd _).2.1⟩
  · simp only [List.foldl_cons, List.foldl_nil, (hd y1).2.2, (hd y2).2.2, (hd y3).2.2, (hd y4).2.2]; omega

/-- **C88 does not hold.** The text 20230231237500Z (the 31st of February, 23:75) is no date, but it's accepted; so is a proper date
with something after it. -/
theorem C88_refuted : (∃ s, (∀ t, ¬ Denotes s t) ∧ ∃ tm, gt2time s = .ok tm) ∧
    ∃ s, Denotes s (instant 2023 2 28 0 0 0) ∧ ∃ tm, gt2time (s ++ [0x21]) = .ok tm := by
  have h1 := Ex.gtText 2 0 2 3 0 2 3 1 2 3 7 5 0 0
  have h2 := Ex.gtText 2 0 2 3 0 2 2 8 0 0 0 0 0 0
  constructor
  · refine ⟨_, ?_, (C88_exact _).2 ⟨_, [], _, _, _, _, _, _, (List.append_nil _).symm, h1, by decide, by decide, by decide, by decide,
      by decide, by decide⟩⟩
    rintro t ⟨y, m, d, h, mi, sec, hg, hr, -⟩
    obtain ⟨-, -, -, -, rfl, -⟩ := gtText_unique (r := []) (r' := []) h1 hg rfl
    exact absurd hr.2.2.2.2.2.2.2.1 (by decide)
  · exact ⟨_, ⟨_, _, _, _, _, _, h2, by decide, rfl⟩, (C88_exact _).2 ⟨_, [0x21], _, _, _, _, _, _, rfl, h2, by decide, by decide, by decide,
      by decide, by decide, by decide⟩⟩

/-- The hypotheses are met, by the last second of February in a leap year. -/
example : Denotes (Ex.text [2, 0, 2, 4, 0, 2, 2, 9, 2, 3, 5, 9, 5, 9] ++ [0x5A]) (instant 2024 2 29 23 59 59) ∧
    IsAt ⟨124, 1, 29, 23, 59, 59⟩ (instant 2024 2 29 23 59 59) ∧ instant 2024 3 1 0 0 0 = instant 2024 2 29 23 59 59 + 1 ∧
    instant 2000 1 1 0 0 0 - instant 1970 1 1 0 0 0 = 946684800 :=
  ⟨⟨_, _, _, _, _, _, Ex.gtText 2 0 2 4 0 2 2 9 2 3 5 9 5 9, by decide, rfl⟩, ⟨by decide, rfl⟩, by decide, by decide⟩

end Verif.Mft
