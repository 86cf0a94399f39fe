import Verif.Rtime.Spec
/-
C211: An rsync gets the time that's configured, no less and no more.
-/
namespace Verif.Rtime
open Verif.Net

theorem pollArg_small {seconds delta : Nat} (h : seconds ≤ 2147483) (hd : delta ≤ 1000 * seconds) : pollArg seconds delta = ((1000 * seconds - delta : Nat) : Int) := by
  unfold pollArg
  rw [Int.bmod_eq_of_le] <;> omega

/-- It's `exhaust_read_fds`. -/
theorem C211_same (seconds : Nat) : ∀ (evs : List Ev) (now : Nat) (p : Pfd) (error : Nat),
    (exhaustLoop (1000 * seconds) (polls evs now) p error).map (·.1) = (timed seconds evs now p error).map (·.result)
  | [], _, _, _ => rfl
  | .timeout _ :: _, _, _, _ => rfl
  | .eintr w :: l, now, p, _ => C211_same seconds l (now + w) p eINTR
  | .err _ :: _, _, _, _ => rfl
  | .ready r0 r1 w k :: l, now, p, error => by
    simp only [polls, timed, exhaustLoop]
    by_cases h1 : (handleFd r0 p.f0 error).1.polled = false ∧ (handleFd r1 p.f1 (handleFd r0 p.f0 error).2).1.polled = false
    · rw [if_pos h1, if_pos h1]; rfl
    · rw [if_neg h1, if_neg h1, if_neg (by omega)]
      by_cases h2 : now + w + k ≥ 1000 * seconds
      · rw [if_pos h2, if_pos (by omega)]; rfl
      · rw [if_neg h2, if_neg (by omega)]
        exact C211_same seconds l _ _ _

/-- It doesn't give up before the time is over, if the time is positive and no more than 24 days; signals don't matter. -/
theorem patient_from {seconds : Nat} (h0 : seconds ≠ 0) (hs : seconds ≤ 2147483) : ∀ (evs : List Ev) (now delta : Nat) (p : Pfd) (error : Nat) (o : Out),
    delta ≤ now → delta < 1000 * seconds → LegalFrom seconds evs now delta → timed seconds evs now p error = some o → Patient seconds o
  | [], _, _, _, _, _, _, _, _, h => by simp [timed] at h
  | .timeout w :: l, now, delta, p, e, o, hd, hd', hl, h => by
    simp only [timed, Option.some.injEq] at h
    subst h
    have hl := hl.1.2
    rw [pollArg_small hs (Nat.le_of_lt hd')] at hl
    exact fun _ => ⟨h0, show _ ≤ now + w by omega⟩
  | .eintr w :: l, now, delta, p, e, o, hd, hd', hl, h => patient_from h0 hs l (now + w) delta p eINTR o (by omega) hd' hl.2 h
  | .err w :: l, now, delta, p, e, o, hd, hd', hl, h => by
    simp only [timed, Option.some.injEq] at h
    subst h
    exact fun h => by simp at h
  | .ready r0 r1 w k :: l, now, delta, p, e, o, hd, hd', hl, h => by
    simp only [timed] at h
    split at h
    · simp only [Option.some.injEq] at h; subst h; exact fun h => by simp at h
    · split at h
      · rename_i ht
        simp only [Option.some.injEq] at h; subst h; exact fun _ => ⟨h0, ht⟩
      · exact patient_from h0 hs l _ _ _ _ o (Nat.le_refl _) (by omega) hl.2 h

/-- It doesn't wait after the time is over, if there are no signals and the time is no more than 24 days. -/
theorem inTime_from {seconds : Nat} (hs : seconds ≤ 2147483) : ∀ (evs : List Ev) (now : Nat) (p : Pfd) (error : Nat),
    now ≤ 1000 * seconds → Quiet evs → LegalFrom seconds evs now now →
    match timed seconds evs now p error with
    | some o => o.woke ≤ 1000 * seconds
    | none => evs = [] ∨ now + total evs < 1000 * seconds
  | [], _, _, _, _, _, _ => by simp [timed]
  | .timeout w :: l, now, p, e, hn, _, hl => by
    have hl := hl.1.2
    rw [pollArg_small hs hn] at hl
    simp only [timed]; omega
  | .eintr w :: l, now, p, e, hn, hq, hl => absurd rfl (hq _ List.mem_cons_self w)
  | .err w :: l, now, p, e, hn, _, hl => by
    have hl : 0 ≤ pollArg seconds now → (w : Int) ≤ pollArg seconds now := hl.1
    rw [pollArg_small hs hn] at hl
    simp only [timed]; omega
  | .ready r0 r1 w k :: l, now, p, e, hn, hq, hl => by
    have hw : 0 ≤ pollArg seconds now → (w : Int) ≤ pollArg seconds now := hl.1
    rw [pollArg_small hs hn] at hw
    simp only [timed]
    by_cases h1 : (handleFd r0 p.f0 e).1.polled = false ∧ (handleFd r1 p.f1 (handleFd r0 p.f0 e).2).1.polled = false
    · rw [if_pos h1]; show now + w ≤ _; omega
    · rw [if_neg h1]
      by_cases h2 : now + w + k ≥ 1000 * seconds
      · rw [if_pos h2]; show now + w ≤ _; omega
      · rw [if_neg h2]
        have ih := inTime_from hs l (now + w + k) ⟨(handleFd r0 p.f0 e).1, (handleFd r1 p.f1 (handleFd r0 p.f0 e).2).1⟩ (handleFd r1 p.f1 (handleFd r0 p.f0 e).2).2
          (by omega) (fun e he => hq e (List.mem_cons_of_mem _ he)) hl.2
        split at ih
        · exact ih
        · refine .inr ?_
          simp only [total]
          rcases ih with rfl | ih
          · simp only [total]; omega
          · omega

/-- If the time is positive, and no more than 24 days: rsync isn't given up before (whatever happens); and if no signal interrupts the validator, it doesn't wait after it. -/
theorem C211_partial {seconds : Nat} (h0 : seconds ≠ 0) (hs : seconds ≤ 2147483) {evs : List Ev} (hl : Posix seconds evs) {o : Out} (h : transfer seconds evs = some o) :
    Patient seconds o ∧ (Quiet evs → InTime seconds o) := by
  refine ⟨patient_from h0 hs evs 0 0 _ _ o (Nat.le_refl _) (by omega) hl h, fun hq => .inr ?_⟩
  have := inTime_from hs evs 0 ⟨⟨true, 0⟩, ⟨true, 0⟩⟩ 0 (Nat.zero_le _) hq hl
  unfold transfer at h
  rw [h] at this
  exact this

/-- Under the same conditions, as long as it waits, the time isn't over. -/
theorem C211_waits {seconds : Nat} (h0 : seconds ≠ 0) (hs : seconds ≤ 2147483) {evs : List Ev} (hl : Posix seconds evs) (hq : Quiet evs) (h : transfer seconds evs = none) :
    total evs < 1000 * seconds := by
  have := inTime_from hs evs 0 ⟨⟨true, 0⟩, ⟨true, 0⟩⟩ 0 (Nat.zero_le _) hq hl
  unfold transfer at h
  rw [h] at this
  rcases this with rfl | h
  · simp only [total]; omega
  · omega

/-- Data, then more data, then nothing: it gives up after 900 seconds; and the end of both streams: it doesn't. -/
example : Posix 900 [.ready (.ready .data) .none 1500 3, .ready .none (.ready .data) 800000 10, .timeout 98487] ∧
    Quiet [.ready (.ready .data) .none 1500 3, .ready .none (.ready .data) 800000 10, .timeout 98487] ∧
    transfer 900 [.ready (.ready .data) .none 1500 3, .ready .none (.ready .data) 800000 10, .timeout 98487] = some ⟨2, true, 900000, 900000⟩ ∧
    transfer 900 [.ready (.ready .data) .none 1500 3, .ready (.ready .eof) (.ready .eof) 800000 10] = some ⟨0, false, 801503, 801513⟩ := by
  refine ⟨?_, ?_, by decide +kernel, by decide +kernel⟩
  · simp only [Posix, LegalFrom, Ev.Legal, Ev.wait]
    decide +kernel
  · intro e he w
    simp only [List.mem_cons, List.not_mem_nil, or_false] at he
    rcases he with rfl | rfl | rfl <;> simp

/-- **C211 is false as such.** If the time is 0, it gives up at once; it's documented as unlimited. -/
theorem C211_refuted_zero : Posix 0 [.timeout 0] ∧ ∃ o, transfer 0 [.timeout 0] = some o ∧ o.result = 2 ∧ o.done = 0 ∧ ¬ Patient 0 o :=
  ⟨⟨⟨by decide +kernel, by decide +kernel⟩, trivial⟩, ⟨2, true, 0, 0⟩, rfl, rfl, rfl, fun h => (h rfl).1 rfl⟩

/-- With 0, it never waits, whatever rsync does. -/
theorem C211_zero {evs : List Ev} (hq : Quiet evs) (hl : Posix 0 evs) {o : Out} (h : transfer 0 evs = some o) : o.woke = 0 := by
  have := inTime_from (seconds := 0) (by decide) evs 0 ⟨⟨true, 0⟩, ⟨true, 0⟩⟩ 0 (Nat.zero_le _) hq hl
  unfold transfer at h
  rw [h] at this
  exact Nat.le_zero.1 this

/-- The time isn't measured after a signal. -/
def signals : Nat → List Ev
  | 0 => []
  | n + 1 => .eintr 899999 :: signals n

theorem signals_spec : ∀ (n now e : Nat) (p : Pfd), LegalFrom 900 (signals n) now 0 ∧ timed 900 (signals n) now p e = none ∧ total (signals n) = 899999 * n
  | 0, _, _, _ => ⟨trivial, rfl, rfl⟩
  | n + 1, now, e, p => by
    have ih := signals_spec n (now + 899999) eINTR p
    refine ⟨⟨fun _ => by decide +kernel, ih.1⟩, ih.2.1, ?_⟩
    show 899999 + total (signals n) = _
    rw [ih.2.2]; omega

/-- **C211 is false as such.** There's no bound if signals interrupt it, each before 15 minutes have passed since the last. -/
theorem C211_refuted_signals : ∀ n, ∃ evs, Posix 900 evs ∧ transfer 900 evs = none ∧ n ≤ total evs := fun n =>
  have h := signals_spec n 0 0 ⟨⟨true, 0⟩, ⟨true, 0⟩⟩
  ⟨signals n, h.1, h.2.1, by rw [h.2.2]; omega⟩

/-- **C211 is false as such.** With 2147484 seconds (25 days) it can wait forever for the first byte; with 536870912 (17 years) it gives up at once. -/
theorem C211_refuted_long : (∀ n, Posix 2147484 [.ready (.ready .eof) (.ready .eof) n 0] ∧ transfer 2147484 [.ready (.ready .eof) (.ready .eof) n 0] = some ⟨0, false, n, n⟩) ∧
    Posix 536870912 [.timeout 0] ∧ transfer 536870912 [.timeout 0] = some ⟨2, true, 0, 0⟩ := by
  refine ⟨fun n => ⟨⟨fun h => absurd h (by decide +kernel), trivial⟩, ?_⟩, ⟨⟨by decide +kernel, by decide +kernel⟩, trivial⟩, rfl⟩
  simp [transfer, timed, handleFd, Fd.close]

end Verif.Rtime
