import Verif.Asn.ModelCon
/-
Equality of decoded structures can be computed. (For the examples.)
-/
namespace Verif.Asn
open Verif.Res (Byte)

mutual
def Val.eqB : Val → Val → Bool
  | .bytes a, .bytes b => a == b
  | .null, .null => true
  | .bool a, .bool b => a == b
  | .bits a u, .bits b w => a == b && u == w
  | .seq a, .seq b => optsEqB a b
  | .list a, .list b => valsEqB a b
  | .alt i a, .alt j b => i == j && a.eqB b
  | _, _ => false

def optsEqB : List (Option Val) → List (Option Val) → Bool
  | [], [] => true
  | a :: as, b :: bs => optEqB a b && optsEqB as bs
  | _, _ => false

def optEqB : Option Val → Option Val → Bool
  | none, none => true
  | some a, some b => a.eqB b
  | _, _ => false

def valsEqB : List Val → List Val → Bool
  | [], [] => true
  | a :: as, b :: bs => a.eqB b && valsEqB as bs
  | _, _ => false
end

mutual
theorem Val.eq_of_eqB : ∀ a b : Val, a.eqB b = true → a = b
  | .bytes a, b, h => by cases b <;> simp_all [Val.eqB]
  | .null, b, h => by cases b <;> simp_all [Val.eqB]
  | .bool a, b, h => by cases b <;> simp_all [Val.eqB]
  | .bits a u, b, h => by cases b <;> simp_all [Val.eqB]
  | .seq a, b, h => by
    cases b with
    | seq b => simp only [Val.eqB] at h; rw [optsEqB_eq a b h]
    | _ => simp [Val.eqB] at h
  | .list a, b, h => by
    cases b with
    | list b => simp only [Val.eqB] at h; rw [valsEqB_eq a b h]
    | _ => simp [Val.eqB] at h
  | .alt i a, b, h => by
    cases b with
    | alt j b => simp only [Val.eqB, Bool.and_eq_true, beq_iff_eq] at h; rw [h.1, Val.eq_of_eqB a b h.2]
    | _ => simp [Val.eqB] at h

theorem optsEqB_eq : ∀ a b : List (Option Val), optsEqB a b = true → a = b
  | [], b, h => by cases b <;> simp_all [optsEqB]
  | a :: as, b, h => by
    cases b with
    | nil => simp [optsEqB] at h
    | cons b bs => simp only [optsEqB, Bool.and_eq_true] at h; rw [optEqB_eq a b h.1, optsEqB_eq as bs h.2]

theorem optEqB_eq : ∀ a b : Option Val, optEqB a b = true → a = b
  | none, b, h => by cases b <;> simp_all [optEqB]
  | some a, b, h => by
    cases b with
    | none => simp [optEqB] at h
    | some b => simp only [optEqB] at h; rw [Val.eq_of_eqB a b h]

theorem valsEqB_eq : ∀ a b : List Val, valsEqB a b = true → a = b
  | [], b, h => by cases b <;> simp_all [valsEqB]
  | a :: as, b, h => by
    cases b with
    | nil => simp [valsEqB] at h
    | cons b bs => simp only [valsEqB, Bool.and_eq_true] at h; rw [Val.eq_of_eqB a b h.1, valsEqB_eq as bs h.2]
end

def R.okB (r : R Val) (v : Val) (n : Nat) : Bool := match r with | .ok w m => w.eqB v && m == n | _ => false
def R.hangB (r : R Val) : Bool := match r with | .hang => true | _ => false
def Decoded.okB (r : Decoded) (v : Val) : Bool := match r with | .ok w => w.eqB v | _ => false
def Decoded.errorB (r : Decoded) : Bool := match r with | .error => true | _ => false

theorem R.eq_ok {r : R Val} {v : Val} {n : Nat} (h : r.okB v n = true) : r = .ok v n := by
  cases r <;> simp_all [R.okB]
  exact Val.eq_of_eqB _ _ h.1

def R.isB (r : R Val) (v : Val) : Bool := match r with | .ok w _ => w.eqB v | _ => false

theorem R.eq_ex {r : R Val} {v : Val} (h : r.isB v = true) : ∃ n, r = .ok v n := by
  cases r <;> simp_all [R.isB]
  exact Val.eq_of_eqB _ _ h

theorem R.eq_hang {r : R Val} (h : r.hangB = true) : r = .hang := by cases r <;> simp_all [R.hangB]

theorem Decoded.eq_ok {r : Decoded} {v : Val} (h : r.okB v = true) : r = .ok v := by
  cases r <;> simp_all [Decoded.okB]
  exact Val.eq_of_eqB _ _ h

theorem Decoded.eq_error {r : Decoded} (h : r.errorB = true) : r = .error := by cases r <;> simp_all [Decoded.errorB]

end Verif.Asn
