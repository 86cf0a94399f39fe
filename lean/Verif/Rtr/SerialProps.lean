/-
C01: RFC 1982 serial order; C11 (first part): session IDs.
-/
import Verif.Rtr.Spec

namespace Verif.Rtr

/-- Number of increments (mod 2^32) that lead from `a` to `b`: the specification-level notion of distance. -/
def fwdDist (a b : Serial) : Nat := (b.toNat + 2 ^ 32 - a.toNat) % 2 ^ 32

/-- C01. `serial_lt(a, b)` holds exactly when 1 to 2^31-1 increments lead from `a` to `b`. -/
theorem C01_serial_lt_iff (a b : Serial) :
    serialLt a b = true ↔ 1 ≤ fwdDist a b ∧ fwdDist a b < 2 ^ 31 := by
  unfold serialLt fwdDist
  have ha := a.isLt
  have hb := b.isLt
  by_cases h : a = b
  · subst h; simp
  · have hne : a.toNat ≠ b.toNat := fun hh => h (BitVec.eq_of_toNat_eq hh)
    simp only [h, if_false, Bool.or_eq_true, Bool.and_eq_true, decide_eq_true_eq, BitVec.lt_def, gt_iff_lt,
      BitVec.toNat_sub, BitVec.toNat_ofNat]
    omega

/-- C01. Irreflexive. -/
theorem C01_irrefl (a : Serial) : serialLt a a = false := by simp [serialLt]

/-- C01. Asymmetric. -/
theorem C01_asymm (a b : Serial) (h : serialLt a b = true) : serialLt b a = false := by
  by_contra hc
  rw [Bool.not_eq_false] at hc
  rw [C01_serial_lt_iff] at h hc
  unfold fwdDist at *
  have ha := a.isLt
  have hb := b.isLt
  omega

/-- C01. Two serials are unordered exactly when they are equal or 2^31 apart. -/
theorem C01_unordered_iff (a b : Serial) :
    (serialLt a b = false ∧ serialLt b a = false) ↔ a = b ∨ fwdDist a b = 2 ^ 31 := by
  have h1 := C01_serial_lt_iff a b
  have h2 := C01_serial_lt_iff b a
  rw [← Bool.not_eq_true, ← Bool.not_eq_true, h1, h2, ← BitVec.toNat_inj]
  unfold fwdDist at *
  have ha := a.isLt
  have hb := b.isLt
  omega

/-- C01. Adding 1 to 2^31-1 increases a serial, also across the wrap-around. -/
theorem C01_add_lt (a : Serial) (n : Nat) (h0 : 1 ≤ n) (h : n < 2 ^ 31) :
    serialLt a (a + BitVec.ofNat 32 n) = true := by
  rw [C01_serial_lt_iff]
  unfold fwdDist
  have ha := a.isLt
  rw [BitVec.toNat_add, BitVec.toNat_ofNat]
  omega

example : serialLt 0xFFFFFFFF#32 3#32 = true := by decide
example : serialLt 3#32 0xFFFFFFFF#32 = false := by decide
example : serialLt 5#32 (5#32 + 0x80000000#32) = false ∧ serialLt (5#32 + 0x80000000#32) 5#32 = false := by decide

/-- C11. Whatever the start time, the session IDs of the two protocol versions differ. -/
theorem C11_sessions_differ (cap : Nat) (now : BitVec 64) :
    (State.init cap now).sessionId 0 ≠ (State.init cap now).sessionId 1 := by
  simp only [State.sessionId, State.init]
  generalize ((now &&& 0xFFFF#64).setWidth 16 : BitVec 16) = v
  by_cases h : v = 0
  · subst h; decide
  · simp only [h, ne_eq, not_false_eq_true, if_true]
    intro hh
    have : (0#8 = 1#8) = False := by decide
    simp only [show ((0 : BitVec 8) = 1) = False by decide, if_false] at hh
    have := congrArg BitVec.toNat hh
    have hv := v.isLt
    rw [BitVec.toNat_sub] at this
    simp at this
    omega

/-- C11. Session IDs never change: an update cycle keeps both. -/
theorem C11_sessions_constant (st : State) (r : Option Table) (v : BitVec 8) :
    (st.update r).1.sessionId v = st.sessionId v := by
  unfold State.update State.sessionId
  repeat' split
  all_goals rfl

example : (State.init 2 0x10000#64).sessionId 0 = 0 ∧ (State.init 2 0x10000#64).sessionId 1 = 0xFFFF#16 := by
  decide

end Verif.Rtr
