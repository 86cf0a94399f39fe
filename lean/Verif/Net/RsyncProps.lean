import Verif.Net.RsyncModel
import Mathlib.Tactic.ByContra
/-
C57 (rsync), C97, C98, C99: rsync downloads.
-/
namespace Verif.Net
open Verif.Rtr (Byte)

/-! ### Specification -/

/-- What is said of one of the two descriptors (`false` is the first one). -/
def Poll.of (b : Bool) : Poll → Rev
  | .ready r0 r1 _ => if b then r1 else r0
  | _ => .none

def Pfd.get (p : Pfd) (b : Bool) : Fd := if b then p.f1 else p.f0

/-- Nothing went wrong: there was nothing to read, or it was read, or it was over. -/
def Rev.Fine : Rev → Prop
  | .none => True
  | .ready .data => True
  | .ready .eof => True
  | _ => False

instance : DecidablePred Rev.Fine := fun r => by
  cases r with
  | none => exact isTrue trivial
  | nval => exact isFalse id
  | err => exact isFalse id
  | ready r => cases r with
    | data => exact isTrue trivial
    | eof => exact isTrue trivial
    | eintr => exact isFalse id
    | err => exact isFalse id

/-! ### Descriptors -/

/-- What holds of a descriptor between iterations: it's polled and was not closed; or it was closed once and reached its end, or failed; or it wasn't a descriptor. -/
structure FdInv (seen : List Rev) (f : Fd) (error : Nat) : Prop where
  polled : f.polled = true → f.closes = 0
  closed : f.polled = false → (f.closes = 1 ∧ (.ready .eof ∈ seen ∨ error ≠ 0)) ∨ (f.closes = 0 ∧ .nval ∈ seen ∧ error ≠ 0)

theorem or_ne_zero {a b : Nat} (h : a ≠ 0) : a ||| b ≠ 0 := by
  intro e
  exact h (Nat.or_eq_zero_iff.1 e).1

theorem or_one_ne (a : Nat) : a ||| 1 ≠ 0 := by
  intro e
  exact absurd (Nat.or_eq_zero_iff.1 e).2 (by decide)

theorem handleFd_error {rev : Rev} {f : Fd} {error : Nat} (h : error ≠ 0) : (handleFd rev f error).2 ≠ 0 := by
  unfold handleFd
  split
  · exact h
  · cases rev with
    | none => exact h
    | nval => exact or_ne_zero h
    | err => exact or_ne_zero h
    | ready r =>
      cases r with
      | data => exact h
      | eof => exact or_ne_zero h
      | eintr => exact (by decide : eINTR ≠ 0)
      | err e => exact or_one_ne e

theorem handleFd_zero {rev : Rev} {f : Fd} {error : Nat} (h : (handleFd rev f error).2 = 0) : error = 0 ∧ (f.polled = true → rev.Fine) := by
  refine ⟨?_, ?_⟩
  · by_contra hn; exact handleFd_error hn h
  · intro hp
    unfold handleFd at h
    rw [if_neg (by rw [hp]; decide)] at h
    cases rev with
    | none => trivial
    | nval => exact absurd h (or_one_ne _)
    | err => exact absurd h (or_one_ne _)
    | ready r =>
      cases r with
      | data => trivial
      | eof => trivial
      | eintr => cases h
      | err e => exact absurd h (or_one_ne e)

theorem FdInv.mono {seen seen' : List Rev} {f : Fd} {error error' : Nat} (h : FdInv seen f error) (hs : ∀ r ∈ seen, r ∈ seen') (he : error ≠ 0 → error' ≠ 0) :
    FdInv seen' f error' := by
  refine ⟨h.polled, fun hp => ?_⟩
  rcases h.closed hp with ⟨h1, h2 | h2⟩ | ⟨h1, h2⟩
  · exact .inl ⟨h1, .inl (hs _ h2)⟩
  · exact .inl ⟨h1, .inr (he h2)⟩
  · exact .inr ⟨h1, hs _ h2.1, he h2.2⟩

theorem handleFd_inv {seen : List Rev} {rev : Rev} {f : Fd} {error : Nat} (h : FdInv seen f error) : FdInv (seen ++ [rev]) (handleFd rev f error).1 (handleFd rev f error).2 := by
  have hs : ∀ r ∈ seen, r ∈ seen ++ [rev] := fun r hr => List.mem_append_left _ hr
  have hm : rev ∈ seen ++ [rev] := by simp
  cases hp : f.polled with
  | false =>
    have e : handleFd rev f error = (f, error) := by unfold handleFd; rw [if_pos hp]
    rw [e]
    exact h.mono hs id
  | true =>
    have hc := h.polled hp
    unfold handleFd
    rw [if_neg (by rw [hp]; decide)]
    cases rev with
    | none => exact h.mono hs id
    | nval => exact ⟨(fun hh => by cases hh), fun _ => .inr ⟨hc, hm, or_one_ne _⟩⟩
    | err => exact ⟨(fun hh => by cases hh), fun _ => .inl ⟨(by show f.closes + 1 = 1; rw [hc]), .inr (or_one_ne _)⟩⟩
    | ready r =>
      cases r with
      | data => exact h.mono hs id
      | eof => exact ⟨(fun hh => by cases hh), fun _ => .inl ⟨(by show f.closes + 1 = 1; rw [hc]), .inl hm⟩⟩
      | eintr => exact h.mono hs fun _ => (by decide : eINTR ≠ 0)
      | err e => exact ⟨(fun hh => by cases hh), fun _ => .inl ⟨(by show f.closes + 1 = 1; rw [hc]), .inr (or_one_ne _)⟩⟩

/-- What `closeAll` leaves. -/
theorem closeAll_spec {seen : List Rev} {p : Pfd} {error : Nat} {b : Bool} (h : FdInv seen (p.get b) error) :
    ((closeAll p).get b).closes = 1 ∨ (((closeAll p).get b).closes = 0 ∧ .nval ∈ seen) := by
  cases b with
  | false =>
    change FdInv seen p.f0 error at h
    change (if p.f0.polled then ({ p.f0 with closes := p.f0.closes + 1 } : Fd) else p.f0).closes = 1 ∨ ((if p.f0.polled then ({ p.f0 with closes := p.f0.closes + 1 } : Fd) else p.f0).closes = 0 ∧ _)
    cases hp : p.f0.polled with
    | true => left; simp only [if_true]; rw [h.polled hp]
    | false =>
      simp only [Bool.false_eq_true, if_false]
      rcases h.closed hp with ⟨h1, _⟩ | h1
      · exact .inl h1
      · exact .inr ⟨h1.1, h1.2.1⟩
  | true =>
    change FdInv seen p.f1 error at h
    change (if p.f1.polled then ({ p.f1 with closes := p.f1.closes + 1 } : Fd) else p.f1).closes = 1 ∨ ((if p.f1.polled then ({ p.f1 with closes := p.f1.closes + 1 } : Fd) else p.f1).closes = 0 ∧ _)
    cases hp : p.f1.polled with
    | true => left; simp only [if_true]; rw [h.polled hp]
    | false =>
      simp only [Bool.false_eq_true, if_false]
      rcases h.closed hp with ⟨h1, _⟩ | h1
      · exact .inl h1
      · exact .inr ⟨h1.1, h1.2.1⟩

theorem closeAll_both {seen0 seen1 : List Rev} {p : Pfd} {error : Nat} (h0 : FdInv seen0 p.f0 error) (h1 : FdInv seen1 p.f1 error) (b : Bool) :
    ((closeAll p).get b).closes = 1 ∨ (((closeAll p).get b).closes = 0 ∧ .nval ∈ (if b then seen1 else seen0)) := by
  cases b with
  | false => exact closeAll_spec (b := false) h0
  | true => exact closeAll_spec (b := true) h1

theorem loop_spec (timeout : Int) : ∀ (evs : List Poll) (seen0 seen1 : List Rev) (p : Pfd) (error : Nat) (r : Nat) (p' : Pfd) (rest : List Poll),
    FdInv seen0 p.f0 error → FdInv seen1 p.f1 error → exhaustLoop timeout evs p error = some (r, p', rest) →
    ∃ used, evs = used ++ rest ∧
      (∀ b, (p'.get b).closes = 1 ∨ ((p'.get b).closes = 0 ∧ .nval ∈ (if b then seen1 else seen0) ++ used.map (Poll.of b))) ∧
      (r = 0 → error = 0 ∧ (∀ b, .ready .eof ∈ (if b then seen1 else seen0) ++ used.map (Poll.of b)) ∧ ∀ ev ∈ used, ∃ r0 r1 d, ev = .ready r0 r1 d)
  | [], _, _, _, _, _, _, _, _, _, h => by cases h
  | .timeout :: evs, s0, s1, p, error, r, p', rest, h0, h1, h => by
    rw [exhaustLoop] at h
    cases h
    refine ⟨[.timeout], rfl, ?_, fun hr => by cases hr⟩
    intro b
    rcases closeAll_both h0 h1 b with h | ⟨h, h'⟩
    · exact .inl h
    · exact .inr ⟨h, List.mem_append_left _ h'⟩
  | .err :: evs, s0, s1, p, error, r, p', rest, h0, h1, h => by
    rw [exhaustLoop] at h
    cases h
    refine ⟨[.err], rfl, ?_, fun hr => by cases hr⟩
    intro b
    rcases closeAll_both h0 h1 b with h | ⟨h, h'⟩
    · exact .inl h
    · exact .inr ⟨h, List.mem_append_left _ h'⟩
  | .eintr :: evs, s0, s1, p, error, r, p', rest, h0, h1, h => by
    rw [exhaustLoop] at h
    have hne : eINTR ≠ 0 := by decide
    obtain ⟨used, e, k1, k2⟩ := loop_spec timeout evs (s0 ++ [.none]) (s1 ++ [.none]) p eINTR r p' rest
      (h0.mono (fun r hr => List.mem_append_left _ hr) fun _ => hne) (h1.mono (fun r hr => List.mem_append_left _ hr) fun _ => hne) h
    refine ⟨.eintr :: used, by rw [e]; rfl, ?_, fun hr => absurd (k2 hr).1 hne⟩
    intro b
    have := k1 b
    cases b <;> simpa [Poll.of] using this
  | .ready r0 r1 d :: evs, s0, s1, p, error, r, p', rest, h0, h1, h => by
    rw [exhaustLoop] at h
    simp only at h
    have i0 := handleFd_inv (rev := r0) h0
    have h1' : FdInv s1 p.f1 (handleFd r0 p.f0 error).2 := h1.mono (fun _ hr => hr) handleFd_error
    have i1 := handleFd_inv (rev := r1) h1'
    have i0' : FdInv (s0 ++ [r0]) (handleFd r0 p.f0 error).1 (handleFd r1 p.f1 (handleFd r0 p.f0 error).2).2 := i0.mono (fun _ hr => hr) handleFd_error
    by_cases hc : (handleFd r0 p.f0 error).1.polled = false ∧ (handleFd r1 p.f1 (handleFd r0 p.f0 error).2).1.polled = false
    · rw [if_pos hc] at h
      cases h
      refine ⟨[.ready r0 r1 d], rfl, ?_, ?_⟩
      · intro b
        cases b with
        | false =>
          rcases i0'.closed hc.1 with ⟨h, _⟩ | h
          · exact .inl h
          · exact .inr ⟨h.1, h.2.1⟩
        | true =>
          rcases i1.closed hc.2 with ⟨h, _⟩ | h
          · exact .inl h
          · exact .inr ⟨h.1, h.2.1⟩
      · intro hr
        obtain ⟨e1, _⟩ := handleFd_zero hr
        obtain ⟨e0, _⟩ := handleFd_zero e1
        refine ⟨e0, ?_, fun ev hev => ⟨r0, r1, d, by simpa using hev⟩⟩
        intro b
        cases b with
        | false =>
          rcases i0'.closed hc.1 with ⟨_, h | h⟩ | ⟨_, _, h⟩
          · exact h
          · exact absurd hr h
          · exact absurd hr h
        | true =>
          rcases i1.closed hc.2 with ⟨_, h | h⟩ | ⟨_, _, h⟩
          · exact h
          · exact absurd hr h
          · exact absurd hr h
    · rw [if_neg hc] at h
      by_cases hd : d < 0
      · rw [if_pos hd] at h
        cases h
        refine ⟨[.ready r0 r1 d], rfl, ?_, fun hr => by cases hr⟩
        intro b
        rcases closeAll_both (p := ⟨_, _⟩) i0' i1 b with h | ⟨h, h'⟩
        · exact .inl h
        · exact .inr ⟨h, by cases b <;> exact h'⟩
      · rw [if_neg hd] at h
        by_cases ht : d ≥ timeout
        · rw [if_pos ht] at h
          cases h
          refine ⟨[.ready r0 r1 d], rfl, ?_, fun hr => by cases hr⟩
          intro b
          rcases closeAll_both (p := ⟨_, _⟩) i0' i1 b with h | ⟨h, h'⟩
          · exact .inl h
          · exact .inr ⟨h, by cases b <;> exact h'⟩
        · rw [if_neg ht] at h
          obtain ⟨used, e, k1, k2⟩ := loop_spec timeout evs (s0 ++ [r0]) (s1 ++ [r1]) ⟨_, _⟩ _ r p' rest i0' i1 h
          refine ⟨.ready r0 r1 d :: used, by rw [e]; rfl, ?_, ?_⟩
          · intro b
            have := k1 b
            cases b <;> simpa [Poll.of] using this
          · intro hr
            obtain ⟨g1, g2, g3⟩ := k2 hr
            refine ⟨(handleFd_zero (handleFd_zero g1).1).1, ?_, ?_⟩
            · intro b
              have := g2 b
              cases b <;> simpa [Poll.of] using this
            · intro ev hev
              rcases List.mem_cons.1 hev with rfl | hev
              · exact ⟨r0, r1, d, rfl⟩
              · exact g3 ev hev

theorem fd_init (seen : List Rev) : FdInv seen ⟨true, 0⟩ 0 := ⟨fun _ => rfl, fun h => by cases h⟩

/-! ### Theorems -/

/-- **C97.** When the function returns, each of the two descriptors was closed exactly once; unless `poll` said that it wasn't an open descriptor, in which case it
might not have been closed. -/
theorem C97_descriptors {timeout : Int} {evs rest : List Poll} {r : Nat} {p : Pfd} (h : exhaustReadFds timeout evs = some (r, p, rest)) (b : Bool) :
    (p.get b).closes = 1 ∨ ((p.get b).closes = 0 ∧ ∃ ev ∈ evs, ev.of b = .nval) := by
  obtain ⟨used, e, k1, _⟩ := loop_spec timeout evs [] [] ⟨⟨true, 0⟩, ⟨true, 0⟩⟩ 0 r p rest (fd_init []) (fd_init []) h
  rcases k1 b with h | ⟨h, h'⟩
  · exact .inl h
  · right
    refine ⟨h, ?_⟩
    have : Rev.nval ∈ used.map (Poll.of b) := by cases b <;> simpa using h'
    obtain ⟨ev, hev, he⟩ := List.mem_map.1 this
    exact ⟨ev, by rw [e]; exact List.mem_append_left _ hev, he⟩

/-- **C98.** It returns 0 only if both streams were read until their ends, without timeouts or interruptions. -/
theorem C98_sound {timeout : Int} {evs rest : List Poll} {p : Pfd} (h : exhaustReadFds timeout evs = some (0, p, rest)) :
    ∃ used, evs = used ++ rest ∧ (∀ b, ∃ ev ∈ used, ev.of b = .ready .eof) ∧ ∀ ev ∈ used, ∃ r0 r1 d, ev = .ready r0 r1 d := by
  obtain ⟨used, e, _, k2⟩ := loop_spec timeout evs [] [] ⟨⟨true, 0⟩, ⟨true, 0⟩⟩ 0 0 p rest (fd_init []) (fd_init []) h
  obtain ⟨_, g2, g3⟩ := k2 rfl
  refine ⟨used, e, ?_, g3⟩
  intro b
  have : Rev.ready .eof ∈ used.map (Poll.of b) := by have := g2 b; cases b <;> simpa using this
  obtain ⟨ev, hev, he⟩ := List.mem_map.1 this
  exact ⟨ev, hev, he⟩

theorem handleFd_fine {rev : Rev} {f : Fd} (h : rev.Fine) : (handleFd rev f 0).2 = 0 := by
  unfold handleFd
  split
  · rfl
  · cases rev with
    | none => rfl
    | nval => exact h.elim
    | err => exact h.elim
    | ready r =>
      cases r with
      | data => rfl
      | eof => rfl
      | eintr => exact h.elim
      | err e => exact h.elim

/-- **C98 (partial).** If nothing fails, takes too long or is interrupted, then what it returns is 0. -/
theorem C98_partial {timeout : Int} : ∀ {evs : List Poll} {p : Pfd}, (∀ ev ∈ evs, ∃ r0 r1 d, ev = .ready r0 r1 d ∧ r0.Fine ∧ r1.Fine ∧ 0 ≤ d ∧ d < timeout) →
    ∀ {r : Nat} {p' : Pfd} {rest : List Poll}, exhaustLoop timeout evs p 0 = some (r, p', rest) → r = 0
  | [], _, _, _, _, _, h => by cases h
  | ev :: evs, p, hev, r, p', rest, h => by
    obtain ⟨r0, r1, d, rfl, f0, f1, d0, d1⟩ := hev ev (List.mem_cons_self ..)
    rw [exhaustLoop] at h
    simp only at h
    rw [handleFd_fine f0, handleFd_fine f1] at h
    by_cases hc : (handleFd r0 p.f0 0).1.polled = false ∧ (handleFd r1 p.f1 0).1.polled = false
    · rw [if_pos hc] at h
      cases h; rfl
    · rw [if_neg hc, if_neg (by omega), if_neg (by omega)] at h
      exact C98_partial (fun ev h => hev ev (List.mem_cons_of_mem _ h)) h

/-- **C98 (refuted).** A signal, while it's waiting, makes it return EINTR, although it went on and read everything; the child is sent a SIGTERM then. -/
theorem C98_refuted : exhaustReadFds 900000 [.eintr, .ready (.ready .data) (.ready .data) 1, .ready (.ready .eof) (.ready .eof) 2] =
    some (eINTR, ⟨⟨false, 1⟩, ⟨false, 1⟩⟩, []) := by decide

/-- **C98 (partial).** `poll` waits for as long as it should if the timeout is no more than 24 days. -/
theorem C98_timeout_partial {seconds : Nat} {delta : Int} (h : seconds ≤ 2147483) (h0 : 0 ≤ delta) (h1 : delta ≤ 1000 * seconds) :
    pollArg seconds delta = 1000 * seconds - delta := by
  unfold pollArg
  apply Int.bmod_eq_of_le <;> omega

/-- **C98 (refuted).** If it's 536870912 seconds (17 years), it doesn't wait at all. -/
theorem C98_timeout_refuted : pollArg 536870912 0 = 0 := by decide

/-- The number of an attempt's exit status, if that's how it ended. -/
def Attempt.exit : Attempt → Option Nat
  | .child _ (.exited code) => some code
  | _ => none

theorem rsync_spec (count : Nat) (attempts : Nat → Attempt) (retries : Nat) (s : Rsync) : retries ≤ count →
    ∃ k, retries ≤ k ∧ k ≤ count ∧ (rsyncLoop count attempts retries s).attempts = s.attempts + (k - retries) + 1 ∧
      (∀ j, retries ≤ j → j < k → ∃ c, (attempts j).exit = some c ∧ c ≠ 0) ∧
      ((rsyncLoop count attempts retries s).forks + s.reaps = (rsyncLoop count attempts retries s).reaps + s.forks ∨ (∃ x e, attempts k = .child x (.fail e))) ∧
      (match attempts k with
       | .pipes e => (rsyncLoop count attempts retries s).error = e
       | .fork e => (rsyncLoop count attempts retries s).error = e
       | .child _ (.fail e) => (rsyncLoop count attempts retries s).error = e
       | .child _ (.exited c) => (c = 0 ∧ (rsyncLoop count attempts retries s).error = 0) ∨ (c ≠ 0 ∧ k = count ∧ (rsyncLoop count attempts retries s).error = eIO)
       | .child _ .signaled => (rsyncLoop count attempts retries s).error = -4
       | .child _ .other => (rsyncLoop count attempts retries s).error = -eINVAL) := by
  induction hn : count - retries generalizing retries s with
  | zero =>
    intro hr
    refine ⟨retries, Nat.le_refl _, hr, ?_⟩
    rw [rsyncLoop]
    cases ha : attempts retries with
    | pipes e => exact ⟨by simp, fun j h h' => by omega, .inl (Nat.add_comm ..), rfl⟩
    | fork e => exact ⟨by simp, fun j h h' => by omega, .inl (Nat.add_comm ..), rfl⟩
    | child x w =>
      cases w with
      | fail e => exact ⟨by simp, fun j h h' => by omega, .inr ⟨x, e, rfl⟩, rfl⟩
      | signaled => exact ⟨by simp, fun j h h' => by omega, .inl (by simp only; omega), rfl⟩
      | other => exact ⟨by simp, fun j h h' => by omega, .inl (by simp only; omega), rfl⟩
      | exited c =>
        simp only
        by_cases hc : c = 0
        · rw [if_pos hc]
          exact ⟨by simp, fun j h h' => by omega, .inl (by simp only; omega), .inl ⟨hc, rfl⟩⟩
        · rw [if_neg hc, dif_pos (by omega)]
          exact ⟨by simp, fun j h h' => by omega, .inl (by simp only; omega), .inr ⟨hc, by omega, rfl⟩⟩
  | succ n ih =>
    intro hr
    by_cases hx : ∃ x c, attempts retries = .child x (.exited c) ∧ c ≠ 0
    · obtain ⟨x, c, ha, hc⟩ := hx
      have hstep : rsyncLoop count attempts retries s = rsyncLoop count attempts (retries + 1)
          { s with attempts := s.attempts + 1, forks := s.forks + 1, kills := if x ≠ 0 then s.kills + 1 else s.kills, reaps := s.reaps + 1 } := by
        conv => lhs; rw [rsyncLoop]
        rw [ha]
        simp only
        rw [if_neg hc, dif_neg (by omega)]
      obtain ⟨k, k1, k2, k3, k4, k5, k6⟩ := ih (retries + 1)
        { s with attempts := s.attempts + 1, forks := s.forks + 1, kills := if x ≠ 0 then s.kills + 1 else s.kills, reaps := s.reaps + 1 } (by omega) (by omega)
      rw [hstep]
      refine ⟨k, by omega, k2, by rw [k3]; simp only; omega, ?_, ?_, k6⟩
      · intro j hj hjk
        by_cases e : j = retries
        · exact ⟨c, by rw [e, ha]; rfl, hc⟩
        · exact k4 j (by omega) hjk
      · rcases k5 with h | h
        · left; simp only at h; omega
        · exact .inr h
    · refine ⟨retries, Nat.le_refl _, hr, ?_⟩
      rw [rsyncLoop]
      cases ha : attempts retries with
      | pipes e => exact ⟨by simp, fun j h h' => by omega, .inl (Nat.add_comm ..), rfl⟩
      | fork e => exact ⟨by simp, fun j h h' => by omega, .inl (Nat.add_comm ..), rfl⟩
      | child x w =>
        cases w with
        | fail e => exact ⟨by simp, fun j h h' => by omega, .inr ⟨x, e, rfl⟩, rfl⟩
        | signaled => exact ⟨by simp, fun j h h' => by omega, .inl (by simp only; omega), rfl⟩
        | other => exact ⟨by simp, fun j h h' => by omega, .inl (by simp only; omega), rfl⟩
        | exited c =>
          have hc : c = 0 := by
            by_contra hc
            exact hx ⟨x, c, ha, hc⟩
          simp only
          rw [if_pos hc]
          exact ⟨by simp, fun j h h' => by omega, .inl (by simp only; omega), .inl ⟨hc, rfl⟩⟩

/-- **C57 (rsync).** If the directory can be created, there is at least one attempt and at most one more than the configured retries. All but the last one exited with an error.
It's a success exactly if the last one exited without one. -/
theorem C57_rsync (count : Nat) (attempts : Nat → Attempt) : ∃ n, (rsyncDownload count 0 attempts).attempts = n + 1 ∧ n ≤ count ∧
    (∀ j, j < n → ∃ c, (attempts j).exit = some c ∧ c ≠ 0) ∧
    ((attempts n).exit = some 0 → (rsyncDownload count 0 attempts).error = 0) ∧
    (∀ c, (attempts n).exit = some c → c ≠ 0 → n = count ∧ (rsyncDownload count 0 attempts).error = eIO) ∧
    ((attempts n).exit = none → ∀ e, (attempts n = .pipes e ∨ attempts n = .fork e ∨ ∃ x, attempts n = .child x (.fail e)) → (rsyncDownload count 0 attempts).error = e) ∧
    (∀ x, attempts n = .child x .signaled ∨ attempts n = .child x .other → (rsyncDownload count 0 attempts).error < 0) := by
  obtain ⟨k, _, k2, k3, k4, _, k6⟩ := rsync_spec count attempts 0 ⟨0, 0, 0, 0, 0⟩ (Nat.zero_le _)
  unfold rsyncDownload
  rw [if_neg (by decide)]
  refine ⟨k, by rw [k3]; simp, k2, fun j hj => k4 j (Nat.zero_le _) hj, ?_, ?_, ?_, ?_⟩
  · intro h
    cases ha : attempts k with
    | pipes e => rw [ha] at h; cases h
    | fork e => rw [ha] at h; cases h
    | child x w =>
      rw [ha] at h k6
      cases w with
      | exited c =>
        cases h
        rcases k6 with h | h
        · exact h.2
        · exact absurd rfl h.1
      | _ => cases h
  · intro c h hc
    cases ha : attempts k with
    | pipes e => rw [ha] at h; cases h
    | fork e => rw [ha] at h; cases h
    | child x w =>
      rw [ha] at h k6
      cases w with
      | exited c =>
        cases h
        rcases k6 with h | h
        · exact absurd h.1 hc
        · exact h.2
      | _ => cases h
  · intro _ e he
    rcases he with he | he | ⟨x, he⟩ <;> (rw [he] at k6; exact k6)
  · intro x hx
    rcases hx with hx | hx
    · rw [hx] at k6; simp only at k6; rw [k6]; decide
    · rw [hx] at k6; simp only at k6; rw [k6]; decide

/-- **C98.** No child is killed if all the streams were exhausted. -/
theorem C98_kill {count : Nat} {attempts : Nat → Attempt} (h : ∀ j x w, attempts j = .child x w → x = 0) (retries : Nat) (s : Rsync) :
    (rsyncLoop count attempts retries s).kills = s.kills := by
  induction hn : count - retries generalizing retries s with
  | zero =>
    rw [rsyncLoop]
    cases ha : attempts retries with
    | pipes e => rfl
    | fork e => rfl
    | child x w =>
      have hx := h _ _ _ ha
      subst hx
      cases w with
      | exited c =>
        simp only
        by_cases hc : c = 0
        · rw [if_pos hc]; rfl
        · rw [if_neg hc, dif_pos (by omega)]; rfl
      | _ => rfl
  | succ n ih =>
    rw [rsyncLoop]
    cases ha : attempts retries with
    | pipes e => rfl
    | fork e => rfl
    | child x w =>
      have hx := h _ _ _ ha
      subst hx
      cases w with
      | exited c =>
        simp only
        by_cases hc : c = 0
        · rw [if_pos hc]; rfl
        · rw [if_neg hc, dif_neg (by omega), ih (retries + 1) _ (by omega)]; rfl
      | _ => rfl

/-- **C97.** Every child was waited for, unless `waitpid` failed. -/
theorem C97_children (count : Nat) (mkdir : Int) (attempts : Nat → Attempt) (h : ∀ j x e, attempts j ≠ .child x (.fail e)) :
    (rsyncDownload count mkdir attempts).forks = (rsyncDownload count mkdir attempts).reaps := by
  unfold rsyncDownload
  by_cases hm : mkdir ≠ 0
  · rw [if_pos hm]
  · rw [if_neg hm]
    obtain ⟨k, _, _, _, _, k5, _⟩ := rsync_spec count attempts 0 ⟨0, 0, 0, 0, 0⟩ (Nat.zero_le _)
    rcases k5 with h' | ⟨x, e, h'⟩
    · simpa using h'
    · exact absurd h' (h k x e)

/-- **C97 (refuted).** If a signal interrupts `waitpid` then nobody waits for the child again. -/
theorem C97_refuted : rsyncDownload 1 0 (fun _ => .child 0 (.fail 4)) = ⟨4, 1, 1, 0, 0⟩ := by
  unfold rsyncDownload
  rw [if_neg (by decide), rsyncLoop]
  rfl

/-- **C98 (refuted).** A transfer that timed out is a success if the child exits without an error after the SIGTERM. -/
theorem C98_timeout_success : rsyncDownload 1 0 (fun _ => .child 2 (.exited 0)) = ⟨0, 1, 1, 1, 1⟩ := by
  unfold rsyncDownload
  rw [if_neg (by decide), rsyncLoop]
  rfl

/-- **C99.** The child's arguments are the program, and each configured argument, in order; "$REMOTE" is the URL and "$LOCAL" is the path, each as one argument. -/
theorem C99 (program : List Byte) (args : List (List Byte)) (src dst : List Byte) :
    (prepareRsync program args src dst).length = args.length + 1 ∧ (prepareRsync program args src dst)[0]? = some program ∧
    ∀ i (h : i < args.length), (args[i] = remoteVar → (prepareRsync program args src dst)[i + 1]? = some src) ∧
      (args[i] = localVar → (prepareRsync program args src dst)[i + 1]? = some dst) ∧
      (args[i] ≠ remoteVar → args[i] ≠ localVar → (prepareRsync program args src dst)[i + 1]? = some args[i]) := by
  have hmap : ∀ l : List (List Byte), substArgs src dst l = l.map fun a => if a = remoteVar then src else if a = localVar then dst else a := by
    intro l
    induction l with
    | nil => rfl
    | cons a l ih => rw [substArgs, ih]; rfl
  unfold prepareRsync
  rw [hmap]
  refine ⟨by simp, rfl, ?_⟩
  intro i h
  rw [List.getElem?_cons_succ, List.getElem?_map, List.getElem?_eq_getElem h, Option.map_some]
  refine ⟨fun e => by rw [if_pos e], fun e => ?_, fun e1 e2 => by rw [if_neg e1, if_neg e2]⟩
  rw [if_neg (by rw [e]; decide), if_pos e]

/-- Two failures, then a success. -/
example : rsyncDownload 2 0 (fun j => if j < 2 then .child 0 (.exited 23) else .child 0 (.exited 0)) = ⟨0, 3, 3, 0, 3⟩ := by
  unfold rsyncDownload
  rw [if_neg (by decide), rsyncLoop]
  simp only [if_pos (show 0 < 2 by decide), if_neg (show ¬ 23 = 0 by decide), dif_neg (show ¬ 0 ≥ 2 by decide)]
  rw [rsyncLoop]
  simp only [if_pos (show 0 + 1 < 2 by decide), if_neg (show ¬ 23 = 0 by decide), dif_neg (show ¬ 0 + 1 ≥ 2 by decide)]
  rw [rsyncLoop]
  rfl

/-- The standard error ends first. -/
example : exhaustReadFds 900000 [.ready (.ready .eof) (.ready .data) 1, .ready .none (.ready .eof) 2] = some (0, ⟨⟨false, 1⟩, ⟨false, 1⟩⟩, []) := by decide

/-- A timeout. -/
example : exhaustReadFds 900000 [.ready (.ready .eof) (.ready .data) 1, .timeout] = some (2, ⟨⟨false, 1⟩, ⟨true, 1⟩⟩, []) := by decide

example : prepareRsync [1#8] [[45#8], remoteVar, localVar] [2#8] [3#8] = [[1#8], [45#8], [2#8], [3#8]] := by decide

end Verif.Net
