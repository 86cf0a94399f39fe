import Verif.Conn.Lemmas
import Verif.Rtr.StreamSafetyProps
/-
The functions of `Verif/Conn`, without the heap, are those of `Verif/Rtr/ModelStream`. And how much they lose.
-/
namespace Verif.Conn
open Verif.Heap Verif.Rtr

/-- Without the pointers. -/
def erase (x : Option (Stream × Option Req)) : Option (Stream × Option Request) := x.map fun y => (y.1, y.2.map Req.what)

/-- The end of the loop: `none` if the connection is to be closed. -/
def endOf : LoopEnd → Option (Stream × Option Request)
  | .fine s r => some (s, r)
  | _ => none

/-- The result of `pdustream_next`: `none` if the connection is to be closed. -/
def resultOf : NextRes → Option (Stream × Option Request)
  | .ok s _ r => some (s, r)
  | _ => none

theorem run_bind {α β : Type} (m : HM α) (k : α → HM β) (s : H) : (m >>= k) s = k (m s).1 (m s).2 := rfl

/-- An iteration. -/
theorem iter_refines (s : Stream) (a : Option Req) (h : H) :
    match parseOne s with
    | .frag v => (iter s a h).1 = .leave { s with ver := v }
    | .pdu s' r => ∃ x y, (iter s a h).1 = .got s' ⟨x, y, r⟩
    | _ => (iter s a h).1 = .fail := by
  unfold parseOne iter
  by_cases h8 : s.buf.length < 8
  · simp only [if_pos h8]; rfl
  simp only [if_neg h8]
  by_cases hl : (readHdr s.buf).len.toNat > 1024
  · simp only [if_pos hl]; rfl
  simp only [if_neg hl]
  cases validateVersion s.ver (readHdr s.buf).version (rawOf s.buf) with
  | error e => rfl
  | ok v =>
    simp only
    cases loadPdu v (readHdr s.buf) s (rawOf s.buf) with
    | frag v => simp only [run_bind]; rfl
    | fail _ _ => simp only [run_bind]; rfl
    | text _ _ => simp only [run_bind]; rfl
    | stale => simp only [run_bind]; rfl
    | ub => simp only [run_bind]; rfl
    | pdu s' r => simp only [run_bind]; exact ⟨_, _, rfl⟩

theorem loop_refines : ∀ (n : Nat) (s : Stream) (a : Option Req) (h : H), s.buf.length ≤ n → erase (loop n s a h).1 = endOf (parseLoop s (a.map Req.what))
  | 0, s, a, h, hn => by
    rw [parseLoop, if_pos (by omega)]; rfl
  | n + 1, s, a, h, hn => by
    rw [parseLoop]
    by_cases h0 : s.buf.length = 0
    · rw [if_pos h0]
      unfold loop
      rw [if_pos h0]; rfl
    rw [if_neg h0]
    have hi := iter_refines s a h
    unfold loop
    rw [if_neg h0, run_bind]
    split <;> rename_i hp
    · rw [hp] at hi; simp only at hi; rw [hi]; rfl
    · rw [hp] at hi; simp only at hi; rw [hi]; rfl
    · rw [hp] at hi; simp only at hi; rw [hi]; rfl
    · rw [hp] at hi; simp only at hi; rw [hi]; rfl
    · rw [hp] at hi; simp only at hi; rw [hi]; rfl
    · rename_i s' r
      rw [hp] at hi; simp only at hi
      obtain ⟨x, y, hi⟩ := hi
      rw [hi]
      have := parseOne_pdu_length hp
      exact loop_refines n s' (some ⟨x, y, r⟩) _ (by omega)

theorem next_refines : ∀ (n : Nat) (s : Stream) (es : List SockEv) (a : Option Req) (h : H), pdustreamNext n s es (a.map Req.what) ≠ .spin →
    erase (next n s es a h).1 = resultOf (pdustreamNext n s es (a.map Req.what))
  | 0, _, _, _, _, hs => absurd rfl hs
  | n + 1, s, es, a, h, hs => by
    rw [pdustreamNext] at hs ⊢
    unfold next
    simp only at hs ⊢
    by_cases he : (updateBuffer s es).2.2 = .error
    · simp only [if_pos he, run_bind]; rfl
    simp only [if_neg he, run_bind] at hs ⊢
    have hl := loop_refines (updateBuffer s es).1.buf.length (updateBuffer s es).1 a h (Nat.le_refl _)
    cases hx : (loop (updateBuffer s es).1.buf.length (updateBuffer s es).1 a h).1 with
    | none =>
      rw [hx] at hl
      cases hp : parseLoop (updateBuffer s es).1 (a.map Req.what) with
      | fine s' r => rw [hp] at hl; cases hl
      | closed e => rfl
      | gotError t => rfl
      | stale => rfl
      | ub => rfl
    | some x =>
      obtain ⟨s1, b⟩ := x
      rw [hx] at hl
      cases hp : parseLoop (updateBuffer s es).1 (a.map Req.what) with
      | closed e => rw [hp] at hl; cases hl
      | gotError t => rw [hp] at hl; cases hl
      | stale => rw [hp] at hl; cases hl
      | ub => rw [hp] at hl; cases hl
      | fine s' r =>
        rw [hp] at hl hs
        cases hl
        cases hu : (updateBuffer s es).2.2 with
        | error => exact absurd hu he
        | eos =>
          simp only
          cases b with
          | none => rfl
          | some b => rfl
        | wouldBlock => rfl
        | keepReading =>
          rw [hu] at hs
          exact next_refines n s1 _ b _ hs

end Verif.Conn
