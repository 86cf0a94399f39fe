import Verif.Print.SpecAsn
import Verif.Print.CertLemmas
import Verif.Res.AddrProps
import Verif.Mft.TimeLemmas
import Mathlib.Tactic.Linarith
import Mathlib.Tactic.Ring
import Mathlib.Tactic.NormNum
import Mathlib.Tactic.Positivity
/-
Printing signed objects: lemmas.
-/
namespace Verif.Print
open Verif.Res (Byte BitStr be prefix4Decode prefix6Decode be_append be_zeros)
open Verif.Mft (Tm gt2time gt2time_iff gt2time_safe)

/-! ### Integers -/

theorem be_lt (l : List Byte) : be l < 256 ^ l.length := by
  induction l with
  | nil => simp [be]
  | cons b l ih =>
    have := b.isLt
    simp only [be, List.length_cons, Nat.pow_succ]
    nlinarith

theorem twos_skip0 (b c : Byte) (r : List Byte) (hb : b = 0) (hc : c &&& 0x80 = 0) : twos (b :: c :: r) = twos (c :: r) := by
  subst hb
  have h : c.toNat < 128 := by
    have : ∀ c : Byte, c &&& 0x80 = 0 → c.toNat < 128 := by decide +kernel
    exact this c hc
  simp only [twos]
  rw [if_neg (by decide), if_neg (by omega)]
  simp [be]

theorem twos_skipF (b c : Byte) (r : List Byte) (hb : b = 0xFF) (hc : c &&& 0x80 ≠ 0) : twos (b :: c :: r) = twos (c :: r) := by
  subst hb
  have h : 128 ≤ c.toNat := by
    have : ∀ c : Byte, c &&& 0x80 ≠ 0 → 128 ≤ c.toNat := by decide +kernel
    exact this c hc
  simp only [twos]
  rw [if_pos (by decide), if_pos h]
  simp only [be, List.length_cons]
  push_cast
  ring

theorem skipSign_twos (l : List Byte) : twos (skipSign l) = twos l := by
  induction l with
  | nil => rfl
  | cons b l ih =>
    cases l with
    | nil => rfl
    | cons c r =>
      unfold skipSign
      by_cases h0 : b = 0x00
      · rw [if_pos h0]
        by_cases hc : c &&& 0x80 = 0
        · rw [if_pos hc, ih, twos_skip0 b c r h0 hc]
        · rw [if_neg hc]
      · rw [if_neg h0]
        by_cases hf : b = 0xFF
        · rw [if_pos hf]
          by_cases hc : c &&& 0x80 ≠ 0
          · rw [if_pos hc, ih, twos_skipF b c r hf hc]
          · rw [if_neg hc]
        · rw [if_neg hf]

/-- What's left is the shortest form. -/
theorem skipSign_large (l : List Byte) (h : (skipSign l).length > 8) : ¬ Whole l := by
  induction l with
  | nil => simp [skipSign] at h
  | cons b l ih =>
    cases l with
    | nil => simp [skipSign] at h
    | cons c r =>
      have key : ¬ (b = 0 ∧ c &&& 0x80 = 0) → ¬ (b = 0xFF ∧ c &&& 0x80 ≠ 0) → (b :: c :: r).length > 8 → ¬ Whole (b :: c :: r) := by
        intro k1 k2 hl
        have g : ∀ b c : Byte, ¬ (b = 0 ∧ c &&& 0x80 = 0) → ¬ (b = 0xFF ∧ c &&& 0x80 ≠ 0) →
            (b.toNat < 128 ∧ 128 ≤ b.toNat * 256 + c.toNat) ∨ (128 ≤ b.toNat ∧ b.toNat * 256 + c.toNat < 65408) := by
          intro b c k1 k2
          have a1 : ∀ c : Byte, c &&& 0x80 = 0 ↔ c.toNat < 128 := by decide +kernel
          have a2 : b = 0 ↔ b.toNat = 0 := by
            constructor
            · rintro rfl; rfl
            · intro h; exact BitVec.eq_of_toNat_eq (by simpa using h)
          have a3 : b = 0xFF ↔ b.toNat = 255 := by
            constructor
            · rintro rfl; rfl
            · intro h; exact BitVec.eq_of_toNat_eq (by simpa using h)
          rw [a1, a2] at k1
          rw [Ne, a1, a3] at k2
          have := b.isLt
          have := c.isLt
          omega
        have hr := be_lt r
        have hlen : 7 ≤ r.length := by simp only [List.length_cons] at hl; omega
        obtain ⟨n, hn⟩ : ∃ n, r.length = n + 7 := ⟨r.length - 7, by omega⟩
        have hp : 0 < 256 ^ n := Nat.pow_pos (by decide)
        obtain ⟨K, hK⟩ : ∃ K, K = 256 ^ n * 72057594037927936 := ⟨_, rfl⟩
        have e0 : be (b :: c :: r) = (b.toNat * 256 + c.toNat) * K + be r := by
          rw [hK]
          simp only [be, List.length_cons, hn, Nat.pow_succ]; ring
        have hr' : be r < K := by
          rw [hK]
          have : (256 : Nat) ^ (n + 7) = 256 ^ n * 72057594037927936 := by rw [Nat.pow_add]
          rw [← this, ← hn]; exact hr
        unfold Whole
        simp only [twos]
        rw [e0]
        have e1 : (256 : Int) ^ ((c :: r).length + 1) = ((256 ^ n : Nat) : Int) * 72057594037927936 * 65536 := by
          simp only [List.length_cons, hn, pow_succ]; push_cast; ring
        rw [e1]
        have hK' : ((256 ^ n : Nat) : Int) * 72057594037927936 = (K : Int) := by rw [hK]; push_cast; ring
        rw [hK']
        have hKp : 72057594037927936 ≤ K := by rw [hK]; nlinarith
        rcases g b c k1 k2 with ⟨g1, g2⟩ | ⟨g1, g2⟩
        · rw [if_neg (by omega)]
          rintro ⟨_, h2⟩
          have : 128 * K ≤ (b.toNat * 256 + c.toNat) * K := Nat.mul_le_mul_right _ g2
          push_cast at h2
          have h2' : ((b.toNat * 256 + c.toNat) * K + be r : Int) < 2 ^ 63 := by linarith
          have : ((128 * K : Nat) : Int) ≤ (((b.toNat * 256 + c.toNat) * K : Nat) : Int) := by exact_mod_cast this
          push_cast at this
          have h0 : (0 : Int) ≤ be r := by positivity
          have : (72057594037927936 : Int) ≤ K := by exact_mod_cast hKp
          norm_num at h2'
          linarith
        · rw [if_pos (by omega)]
          rintro ⟨h1, _⟩
          have : (b.toNat * 256 + c.toNat) * K ≤ 65407 * K := Nat.mul_le_mul_right _ (by omega)
          have : (((b.toNat * 256 + c.toNat) * K : Nat) : Int) ≤ ((65407 * K : Nat) : Int) := by exact_mod_cast this
          push_cast at this h1
          have h3 : (be r : Int) < K := by exact_mod_cast hr'
          have : (72057594037927936 : Int) ≤ K := by exact_mod_cast hKp
          norm_num at h1
          linarith
      have rec_ : ∀ (hl : (skipSign (c :: r)).length > 8), twos (b :: c :: r) = twos (c :: r) → ¬ Whole (b :: c :: r) := by
        intro hl ht
        have := ih hl
        unfold Whole at this ⊢
        rw [ht]; exact this
      unfold skipSign at h
      by_cases h0 : b = 0x00
      · rw [if_pos h0] at h
        by_cases hc : c &&& 0x80 = 0
        · rw [if_pos hc] at h
          exact rec_ h (twos_skip0 b c r h0 hc)
        · rw [if_neg hc] at h
          exact key (fun k => hc k.2) (fun k => by rw [h0] at k; exact absurd k.1 (by decide)) h
      · rw [if_neg h0] at h
        by_cases hf : b = 0xFF
        · rw [if_pos hf] at h
          by_cases hc : c &&& 0x80 ≠ 0
          · rw [if_pos hc] at h
            exact rec_ h (twos_skipF b c r hf hc)
          · rw [if_neg hc] at h
            exact key (fun k => h0 k.1) (fun k => hc k.2) h
        · rw [if_neg hf] at h
          exact key (fun k => h0 k.1) (fun k => hf k.1) h

/-- The conversion, as arithmetic modulo 2^64. -/
theorem convert_fold (l : List Byte) (v : BitVec 64) :
    (l.foldl (fun (v : BitVec 64) (b : Byte) => v <<< 8 ||| b.setWidth 64) v) = BitVec.ofNat 64 (v.toNat * 256 ^ l.length + be l) := by
  induction l generalizing v with
  | nil => simp [be]
  | cons b l ih =>
    rw [List.foldl_cons, ih]
    have h : (v <<< 8 ||| b.setWidth 64).toNat = (v.toNat * 256 + b.toNat) % 2 ^ 64 := by
      have e : v <<< 8 ||| b.setWidth 64 = v <<< 8 + b.setWidth 64 := by
        rw [BitVec.add_eq_or_of_and_eq_zero]
        ext i hi
        simp
        intro h1 h2
        rw [BitVec.getLsbD_of_ge] 
        omega
      rw [e]
      have := b.isLt
      simp [BitVec.toNat_add, Nat.shiftLeft_eq]
    rw [h]
    apply BitVec.eq_of_toNat_eq
    simp only [BitVec.toNat_ofNat, be, List.length_cons, Nat.pow_succ]
    rw [Nat.add_mod, Nat.mul_mod, Nat.mod_mod, ← Nat.mul_mod, ← Nat.add_mod]
    congr 1
    ring

theorem twos_whole (l : List Byte) (h : l.length ≤ 8) : Whole l := by
  cases l with
  | nil => unfold Whole twos; constructor <;> norm_num
  | cons b l =>
    have hl := be_lt l
    simp only [List.length_cons] at h
    unfold Whole
    simp only [twos]
    simp only [be]
    have hp : (256 : Nat) ^ l.length ≤ 256 ^ 7 := Nat.pow_le_pow_right (by decide) (by omega)
    have hb := b.isLt
    generalize hP : 256 ^ l.length = P at *
    have e1 : (256 : Int) ^ (l.length + 1) = (P : Int) * 256 := by rw [← hP, pow_succ]; push_cast; rfl
    rw [e1]
    by_cases h8 : b.toNat ≥ 128
    · rw [if_pos h8]
      push_cast
      constructor
      · have : 128 * P ≤ b.toNat * P := Nat.mul_le_mul_right _ h8
        have : ((128 * P : Nat) : Int) ≤ ((b.toNat * P : Nat) : Int) := by exact_mod_cast this
        have hp' : (P : Int) ≤ 256 ^ 7 := by exact_mod_cast hp
        push_cast at this
        have h0 : (0 : Int) ≤ be l := by positivity
        norm_num at hp' ⊢
        linarith
      · have : b.toNat * P ≤ 255 * P := Nat.mul_le_mul_right _ (by omega)
        have : ((b.toNat * P : Nat) : Int) ≤ ((255 * P : Nat) : Int) := by exact_mod_cast this
        have h3 : (be l : Int) < P := by exact_mod_cast hl
        push_cast at this
        linarith
    · rw [if_neg h8]
      push_cast
      constructor
      · have : (0 : Int) ≤ be l := by positivity
        have : (0 : Int) ≤ b.toNat * P := by positivity
        norm_num
        linarith
      · have : b.toNat * P ≤ 127 * P := Nat.mul_le_mul_right _ (by omega)
        have : ((b.toNat * P : Nat) : Int) ≤ ((127 * P : Nat) : Int) := by exact_mod_cast this
        have h3 : (be l : Int) < P := by exact_mod_cast hl
        have hp' : (P : Int) ≤ 256 ^ 7 := by exact_mod_cast hp
        push_cast at this
        norm_num at hp' ⊢
        linarith

theorem convert_twos (l : List Byte) (h : l.length ≤ 8) (hne : l ≠ []) : (integerConvert l).toInt = twos l := by
  obtain ⟨h1, h2⟩ := twos_whole l h
  cases l with
  | nil => exact absurd rfl hne
  | cons b r =>
    unfold integerConvert
    rw [convert_fold]
    show (BitVec.ofNat 64 ((if b >>> 7 ≠ 0 then BitVec.allOnes 64 else 0).toNat * 256 ^ (b :: r).length + be (b :: r))).toInt = _
    have hb : b >>> 7 ≠ 0 ↔ b.toNat ≥ 128 := by
      have : ∀ b : Byte, b >>> 7 ≠ 0 ↔ b.toNat ≥ 128 := by decide +kernel
      exact this b
    have ho : ∀ n, (BitVec.ofNat 64 n).toInt = (n : Int).bmod (2 ^ 64) := fun n => BitVec.toInt_ofNat ..
    rw [ho]
    have hrange : (twos (b :: r)).bmod (2 ^ 64) = twos (b :: r) := Int.bmod_eq_of_le (by norm_num; linarith) (by norm_num; linarith)
    by_cases h8 : b.toNat ≥ 128
    · rw [if_pos (hb.2 h8)]
      have e : ((((BitVec.allOnes 64).toNat * 256 ^ (b :: r).length + be (b :: r) : Nat) : Int)) = twos (b :: r) + 2 ^ 64 * (256 : Int) ^ (b :: r).length := by
        simp only [twos, if_pos h8, BitVec.toNat_allOnes, List.length_cons]
        push_cast
        ring
      rw [e]
      have := Int.add_mul_bmod_self_left (twos (b :: r)) (2 ^ 64) ((256 : Int) ^ (b :: r).length)
      norm_num at this ⊢
      rw [this]
      norm_num at hrange
      exact hrange
    · rw [if_neg (fun h => h8 (hb.1 h))]
      have e : ((((0 : BitVec 64).toNat * 256 ^ (b :: r).length + be (b :: r) : Nat) : Int)) = twos (b :: r) := by
        simp [twos, h8]
      rw [e]
      exact hrange

/-- The conversion gives the number, whenever it's one of C's. -/
theorem integer2imax_iff (l : List Byte) (i : Int) : integer2imax l = some i ↔ Whole l ∧ i = twos l := by
  unfold integer2imax
  have main : ∀ l' : List Byte, l'.length ≤ 8 → twos l' = twos l →
      ((if l'.length > 8 then none else if l' = [] then some 0 else some (integerConvert l').toInt) = some i ↔ Whole l ∧ i = twos l) := by
    intro l' h8 ht
    rw [if_neg (by omega)]
    have hw : Whole l := by unfold Whole; rw [← ht]; exact twos_whole l' h8
    by_cases h0 : l' = []
    · rw [if_pos h0]
      have : twos l = 0 := by rw [← ht, h0]; rfl
      rw [this]
      constructor
      · intro h; exact ⟨hw, (Option.some.inj h).symm⟩
      · rintro ⟨_, rfl⟩; rfl
    · rw [if_neg h0, convert_twos l' h8 h0, ht]
      constructor
      · intro h; exact ⟨hw, (Option.some.inj h).symm⟩
      · rintro ⟨_, rfl⟩; rfl
  by_cases h : l.length > 8
  · simp only [if_pos h]
    by_cases h2 : (skipSign l).length > 8
    · rw [if_pos h2]
      constructor
      · intro h; cases h
      · intro h; exact absurd h.1 (skipSign_large l h2)
    · exact main (skipSign l) (by omega) (skipSign_twos l)
  · have := main l (by omega) rfl
    simp only [if_neg h] at this ⊢
    exact this

theorem prints_integer (e : Env) (l : List Byte) (h : Whole l) : Prints (integerJson (some l)) e (numDoc l) := by
  simp only [integerJson, (integer2imax_iff l _).2 ⟨h, rfl⟩]
  exact prints_int e _

/-! ### Times -/

theorem digits_length (n v : Nat) : (digits n v).length = n := by
  induction n generalizing v with
  | zero => rfl
  | succ n ih => simp [digits, ih]

theorem decDigits_small (f v : Nat) (h : v < 10) : decDigits f v = [BitVec.ofNat 8 (0x30 + v)] := by
  cases f with
  | zero => simp [decDigits, Nat.mod_eq_of_lt h]
  | succ f => simp [decDigits, h]

theorem pad_dec : ∀ (n v f : Nat), v ≤ f → v < 10 ^ (n + 1) → List.replicate (n + 1 - (decDigits f v).length) 0x30 ++ decDigits f v = digits (n + 1) v := by
  intro n
  induction n with
  | zero =>
    intro v f hf h
    rw [decDigits_small f v (by omega)]
    have : v % 10 = v := by omega
    simp [digits, this]
  | succ n ih =>
    intro v f hf h
    by_cases h10 : v < 10
    · rw [decDigits_small f v h10]
      have h0 := ih 0 0 (by omega) (by positivity)
      rw [decDigits_small 0 0 (by omega)] at h0
      have e : digits (n + 1 + 1) v = digits (n + 1) (v / 10) ++ [BitVec.ofNat 8 (0x30 + v % 10)] := rfl
      have e1 : v / 10 = 0 := by omega
      have e2 : v % 10 = v := by omega
      rw [e, e1, e2, ← h0]
      have : List.replicate (n + 1 + 1 - 1) (0x30 : Byte) = List.replicate n 0x30 ++ [0x30] := by
        rw [show n + 1 + 1 - 1 = n + 1 by omega, List.replicate_succ']
      simp only [List.length_singleton]
      rw [this]
      simp
    · cases f with
      | zero => omega
      | succ f =>
        have e : decDigits (f + 1) v = decDigits f (v / 10) ++ [BitVec.ofNat 8 (0x30 + v % 10)] := by simp [decDigits, h10]
        have e' : digits (n + 1 + 1) v = digits (n + 1) (v / 10) ++ [BitVec.ofNat 8 (0x30 + v % 10)] := rfl
        rw [e, e', ← ih (v / 10) f (by omega) (by rw [Nat.pow_succ] at h; omega)]
        simp [List.append_assoc]

theorem padded_digits (n v : Nat) (h : v < 10 ^ (n + 1)) : padded (n + 1) (v : Int) = digits (n + 1) v := by
  unfold padded
  simp only [Int.natAbs_natCast]
  rw [if_neg (by omega)]
  exact pad_dec n v v (Nat.le_refl _) h

theorem stamp_length (y m d h mi s : Nat) : (stamp y m d h mi s).length = 20 := by
  simp [stamp, digits_length]

/-- Fields of times that were understood fit in their digits. -/
theorem dec_lt {n v : Nat} {b : List Byte} (h : Mft.Dec n v b) : v < 10 ^ n := by
  obtain ⟨h1, h2, rfl⟩ := h
  have : ∀ (b : List Byte) (v : Nat), (∀ x ∈ b, 0x30 ≤ x.toNat ∧ x.toNat ≤ 0x39) →
      b.foldl (fun v x => v * 10 + (x.toNat - 0x30)) v < (v + 1) * 10 ^ b.length := by
    intro b
    induction b with
    | nil => intro v _; simp
    | cons x b ih =>
      intro v h
      have hx := h x (by simp)
      have := ih (v * 10 + (x.toNat - 0x30)) (fun y hy => h y (by simp [hy]))
      rw [List.foldl_cons]
      refine Nat.lt_of_lt_of_le this ?_
      rw [List.length_cons, Nat.pow_succ]
      have : v * 10 + (x.toNat - 48) + 1 ≤ (v + 1) * 10 := by omega
      calc (v * 10 + (x.toNat - 48) + 1) * 10 ^ b.length ≤ ((v + 1) * 10) * 10 ^ b.length := Nat.mul_le_mul_right _ this
        _ = _ := by ring
  have := this b 0 h2
  rw [h1] at this
  simpa using this

theorem tmText_of {s : List Byte} {tm : Tm} (h : gt2time s = .ok tm) :
    tmText tm = stamp (tm.year + 1900).toNat (tm.mon + 1).toNat tm.mday.toNat tm.hour.toNat tm.min.toNat tm.sec.toNat := by
  obtain ⟨t, rest, y, m, d, hh, mi, sec, _, ⟨b1, b2, b3, b4, b5, b6, f, _, d1, d2, d3, d4, d5, d6, _⟩, _, _, _, _, _, _, rfl⟩ := (gt2time_iff s tm).1 h
  have e1 : ((y : Int) - 1900 + 1900) = (y : Int) := by omega
  have e2 : ((m : Int) - 1 + 1) = (m : Int) := by omega
  simp only [tmText, e1, e2, stamp, Int.toNat_natCast]
  rw [padded_digits 3 y (dec_lt d1), padded_digits 1 m (dec_lt d2), padded_digits 1 d (dec_lt d3), padded_digits 1 hh (dec_lt d4), padded_digits 1 mi (dec_lt d5),
    padded_digits 1 sec (dec_lt d6)]

theorem prints_gt (e : Env) (s : List Byte) : Prints (gtJson s) e (gtDoc e s) := by
  unfold gtJson gtDoc
  cases h : gt2time s with
  | oob => exact absurd h (gt2time_safe s)
  | garbage => exact prints_fail e
  | ok tm =>
    dsimp only
    rw [tmText_of h, if_pos (stamp_length _ _ _ _ _ _)]
    exact prints_str e _

theorem prints_utc (e : Env) (s : List Byte) : Prints (utcJson s) e (utcDoc e s) := by
  unfold utcJson utcDoc
  cases h : utAsGt s with
  | none => exact prints_fail e
  | some g =>
    have hfit : ¬ (s = [] ∨ 24 < g.length) := by
      unfold utAsGt at h
      by_cases hc : s.length < 11 ∨ s.length ≥ 22
      · rw [if_pos hc] at h; cases h
      · rw [if_neg hc] at h
        injection h with h
        have hg : g.length = s.length + 2 := by
          rw [← h, List.length_append]
          by_cases h5 : (s.headD 0).toNat > 0x35
          · rw [if_pos h5]; simp; omega
          · rw [if_neg h5]; simp; omega
        rintro (rfl | h1)
        · simp at hc
        · omega
    show Prints (if s = [] ∨ 24 < g.length then crash else gtJson g) e _
    rw [if_neg hfit]
    exact prints_gt e g

/-! ### Members -/

theorem members_append {e : Env} {l : List (String × B)} {os : List (String × Option J)} (h : Members e l os) {l2 : List (String × B)}
    {os2 : List (String × Option J)} (h2 : Members e l2 os2) : Members e (l ++ l2) (os ++ os2) := by
  induction h with
  | nil => exact h2
  | cons k b o l os h _ ih => exact .cons k b o _ _ h ih

theorem members_present {α : Type} {e : Env} (f : α → B) (g : α → Option J) (k : String) (o : Option α) (h : ∀ a, o = some a → Prints (f a) e (g a)) :
    Members e (present f k o) (given g k o) := by
  cases o with
  | none => exact .nil
  | some a => exact .cons _ _ _ _ _ (h a rfl) .nil

theorem prints_octets (e : Env) (l : List Byte) : Prints (octetsJson l) e (hexDoc e l) := prints_str e _

theorem prints_oidName (e : Env) (d : Lib) (l : List Byte) : Prints (oidJson d l) e (nameOfOid e d l) := prints_str e _

theorem prints_optWhole {e : Env} {k : String} {o : Option (List Byte)} (h : OptWhole o) :
    Members e (present (fun l => integerJson (some l)) k o) (given numDoc k o) := members_present _ _ _ _ (fun a ha => prints_integer e a (h a ha))

theorem prints_bind {α : Type} (e : Env) (o : Option α) (f : α → B) (g : α → Option J) (h : ∀ a, o = some a → Prints (f a) e (g a)) :
    Prints (ber2json o f) e (o.bind g) := by
  cases o with
  | none => exact prints_fail e
  | some a => exact h a rfl

mutual
theorem prints_val (e : Env) (d : Lib) : ∀ v : Val, v.Small → Prints (valJson d v) e (valDoc e d v)
  | .int l, h => by simp only [valJson, valDoc]; exact prints_integer e l (by simpa only [Val.Small] using h)
  | .octets l, _ => by simp only [valJson, valDoc]; exact prints_octets e l
  | .utf8 l, _ => by simp only [valJson, valDoc]; exact prints_str e l
  | .oid l, _ => by simp only [valJson, valDoc]; exact prints_oidName e d l
  | .bool b, _ => by simp only [valJson, valDoc]; exact prints_static e _ (by simp [J.nodes])
  | .null, _ => by simp only [valJson, valDoc]; exact prints_static e _ (by simp [J.nodes])
  | .utc l, _ => by simp only [valJson, valDoc]; exact prints_utc e l
  | .gt l, _ => by simp only [valJson, valDoc]; exact prints_gt e l
  | .seq l, h => by simp only [valJson, valDoc]; exact prints_obj e _ _ (prints_fields e d l (by simpa only [Val.Small] using h))
  | .list l, h => by simp only [valJson, valDoc]; exact prints_arr e _ _ (prints_vals e d l (by simpa only [Val.Small] using h))
  | .choice v, h => by simp only [valJson, valDoc]; exact prints_choice e d v (by simpa only [Val.Small] using h)
theorem prints_choice (e : Env) (d : Lib) : ∀ v : Option Val, choiceSmall v → Prints (choiceJson d v) e (choiceDoc e d v)
  | none, _ => by simp only [choiceJson, choiceDoc]; exact prints_static e _ (by simp [J.nodes])
  | some v, h => by simp only [choiceJson, choiceDoc]; exact prints_val e d v (by simpa only [choiceSmall] using h)
theorem prints_fields (e : Env) (d : Lib) : ∀ l : List (String × Option Val), fieldsSmall l → Members e (fieldsJson d l) (fieldsDoc e d l)
  | [], _ => by simp only [fieldsJson, fieldsDoc]; exact .nil
  | (_, none) :: l, h => by simp only [fieldsJson, fieldsDoc]; exact prints_fields e d l (by simpa only [fieldsSmall] using h)
  | (k, some v) :: l, h => by
    simp only [fieldsSmall] at h
    simp only [fieldsJson, fieldsDoc]
    exact .cons _ _ _ _ _ (prints_val e d v h.1) (prints_fields e d l h.2)
theorem prints_vals (e : Env) (d : Lib) : ∀ l : List Val, valsSmall l → Elems e (valsJson d l) (valsDoc e d l)
  | [], _ => by simp only [valsJson, valsDoc]; exact .nil
  | v :: l, h => by
    simp only [valsSmall] at h
    simp only [valsJson, valsDoc]
    exact .cons _ _ _ _ (prints_val e d v h.1) (prints_vals e d l h.2)
end

/-! ### ROAs -/

theorem prefix4_iff (s : BitStr) : (∃ p, prefix4Decode s = some p) ↔ IsPrefix 32 s := by
  constructor
  · rintro ⟨⟨a, n⟩, h⟩
    obtain ⟨h1, h2, h3, h4, h5, h6⟩ := (Res.C21_prefix4 s a n).1 h
    refine ⟨h1, h2, h3, by omega, ?_⟩
    rw [show (8 * (s.buf.length : Int) - s.unused).toNat = n by omega, ← h5]
    exact h6
  · rintro ⟨h1, h2, h3, h4, h5⟩
    have hlt : be s.buf * 2 ^ (32 - 8 * s.buf.length) < 2 ^ 32 := by
      have := be_lt s.buf
      have e : 256 ^ s.buf.length * 2 ^ (32 - 8 * s.buf.length) = 2 ^ 32 := by
        rw [show (256 : Nat) = 2 ^ 8 by norm_num, ← Nat.pow_mul, ← Nat.pow_add]
        congr 1
        omega
      rw [← e]
      exact Nat.mul_lt_mul_of_pos_right this (by positivity)
    refine ⟨⟨BitVec.ofNat 32 (be s.buf * 2 ^ (32 - 8 * s.buf.length)), (8 * (s.buf.length : Int) - s.unused).toNat⟩, (Res.C21_prefix4 _ _ _).2 ⟨h1, h2, h3, by omega, ?_, ?_⟩⟩
    · rw [BitVec.toNat_ofNat, Nat.mod_eq_of_lt hlt]
    · rw [BitVec.toNat_ofNat, Nat.mod_eq_of_lt hlt]; exact h5

theorem prefix4_len {s : BitStr} {p : Res.Prefix4} (h : prefix4Decode s = some p) : (p.len : Int) = 8 * s.buf.length - s.unused ∧ p.len ≤ 32 := by
  obtain ⟨h1, h2, h3, h4, _⟩ := (Res.C21_prefix4 s p.addr p.len).1 h
  exact ⟨h4, by omega⟩

theorem prefix6_addr {s : BitStr} {p : Res.Prefix6} (h : prefix6Decode s = some p) : p.addr = s.buf ++ List.replicate (16 - s.buf.length) 0 := by
  unfold prefix6Decode at h
  split at h
  · cases h
  · split at h
    · cases h
    · dsimp only at h
      split at h
      · cases h
      · split at h
        · cases h
        · exact (congrArg Res.Prefix6.addr (Option.some.inj h)).symm

theorem prefix6_iff (s : BitStr) : (∃ p, prefix6Decode s = some p) ↔ IsPrefix 128 s := by
  have key : ∀ h1 : 8 * s.buf.length ≤ 128, be (s.buf ++ List.replicate (16 - s.buf.length) 0) = be s.buf * 2 ^ (128 - 8 * s.buf.length) := by
    intro h1
    rw [be_append, be_zeros, Nat.add_zero, List.length_replicate, show (256 : Nat) = 2 ^ 8 by norm_num, ← Nat.pow_mul]
    congr 2
    omega
  constructor
  · rintro ⟨⟨a, n⟩, h⟩
    obtain ⟨_, h1, h2, h3, h4, h5, h6⟩ := (Res.C21_prefix6 s a n).1 h
    refine ⟨h1, h2, h3, by omega, ?_⟩
    rw [show (8 * (s.buf.length : Int) - s.unused).toNat = n by omega, ← h5]
    exact h6
  · rintro ⟨h1, h2, h3, h4, h5⟩
    refine ⟨⟨s.buf ++ List.replicate (16 - s.buf.length) 0, (8 * (s.buf.length : Int) - s.unused).toNat⟩,
      (Res.C21_prefix6 _ _ _).2 ⟨by simp; omega, h1, h2, h3, by omega, key h1, by rw [key h1]; exact h5⟩⟩

theorem prefix6_len {s : BitStr} {p : Res.Prefix6} (h : prefix6Decode s = some p) : (p.len : Int) = 8 * s.buf.length - s.unused ∧ p.len ≤ 128 := by
  obtain ⟨_, h1, h2, h3, h4, _⟩ := (Res.C21_prefix6 s p.addr p.len).1 h
  exact ⟨h4, by omega⟩

/-- The document of a prefix, without the maximum length. -/
def pfxMembers (e : Env) (w : Nat) (ntop : List Byte → List Byte) (a : RoaAddr) : List (String × Option J) :=
  [("prefix", text e (ntop (a.address.buf ++ List.replicate (w / 8 - a.address.buf.length) 0))), ("length", some (.int (8 * a.address.buf.length - a.address.unused)))]

theorem prints_prefix2 (e : Env) (txt : List Byte) (n : Nat) (h : n < 256) : Prints (prefix2json txt n) e (object [("prefix", text e txt), ("length", some (.int n))]) := by
  unfold prefix2json
  rw [Nat.mod_eq_of_lt h]
  exact prints_obj e _ _ (.cons _ _ _ _ _ (prints_str e _) (.cons _ _ _ _ _ (prints_int e _) .nil))

theorem prints_prefix4 (e : Env) (a : RoaAddr) : Prints (prefix4ToJson a) e (if IsPrefix 32 a.address then object (pfxMembers e 32 e.ntop4 a) else none) := by
  intro s
  unfold prefix4ToJson
  cases h : prefix4Decode a.address with
  | none =>
    rw [if_neg (fun k => by obtain ⟨p, hp⟩ := (prefix4_iff _).2 k; rw [h] at hp; cases hp)]
    exact prints_fail e s
  | some p =>
    rw [if_pos ((prefix4_iff _).1 ⟨p, h⟩)]
    obtain ⟨l1, l2⟩ := prefix4_len h
    have := prints_prefix2 e (e.ntop4 (a.address.buf ++ List.replicate (4 - a.address.buf.length) 0)) p.len (by omega) s
    unfold pfxMembers
    rw [← l1]
    exact this

theorem prints_prefix6 (e : Env) (a : RoaAddr) : Prints (prefix6ToJson a) e (if IsPrefix 128 a.address then object (pfxMembers e 128 e.ntop6 a) else none) := by
  intro s
  unfold prefix6ToJson
  cases h : prefix6Decode a.address with
  | none =>
    rw [if_neg (fun k => by obtain ⟨p, hp⟩ := (prefix6_iff _).2 k; rw [h] at hp; cases hp)]
    exact prints_fail e s
  | some p =>
    rw [if_pos ((prefix6_iff _).1 ⟨p, h⟩)]
    obtain ⟨l1, l2⟩ := prefix6_len h
    have := prints_prefix2 e (e.ntop6 p.addr) p.len (by omega) s
    unfold pfxMembers
    rw [← l1, ← prefix6_addr h]
    exact this

/-- The array of prefixes, filled in two steps. -/
theorem fillAddrs_ok (e : Env) (pf : RoaAddr → B) (g : RoaAddr → Option (List (String × J))) (held : Nat) (l : List RoaAddr)
    (hp : ∀ a ∈ l, Prints (pf a) e ((g a).map .obj)) (hm : ∀ a ∈ l, ∃ m, a.maxLength = some m ∧ Whole m) :
    ∀ done, Fills e held (J.arr done).nodes (fillAddrs pf held done l)
      ((all (l.map (fun a => (g a).bind (fun ms => a.maxLength.map (fun m => J.obj (ms ++ [("maxLength", .int (twos m))])))))).map (fun ms => .arr (done ++ ms))) := by
  induction l with
  | nil =>
    intro done s
    refine ⟨some (.arr done), s, rfl, ?_, ?_, ?_⟩
    · intro j hj; rw [← Option.some.inj hj]; simp [all]
    · intro _; simp [all]
    · simp only []; omega
  | cons a l ih =>
    intro done s
    obtain ⟨m, hma, hmw⟩ := hm a (by simp)
    obtain ⟨r, s1, h1, h2, h3, h4⟩ := hp a (by simp) s
    have ih := ih (fun x hx => hp x (by simp [hx])) (fun x hx => hm x (by simp [hx]))
    rw [List.map_cons]
    cases r with
    | none =>
      refine ⟨none, _, by simp only [fillAddrs, h1, drop]; rfl, (fun _ h => by cases h), ?_, ?_⟩
      · intro hpl
        have := h3 hpl
        cases hg : g a with
        | none => simp [all]
        | some ms => rw [hg] at this; cases this
      · simp only [] at h4 ⊢; omega
    | some j =>
      have hj := h2 j rfl
      cases hg : g a with
      | none => rw [hg] at hj; cases hj
      | some ms =>
        rw [hg] at hj
        have hj' : J.obj ms = j := Option.some.inj hj
        subst hj'
        simp only [Option.bind_some, hma, Option.map_some]
        cases ha : e.alloc s1.n with
        | false =>
          refine ⟨none, _, by simp only [fillAddrs, h1, ha, Bool.false_eq_true, if_false, drop]; rfl, (fun _ h => by cases h), fun hpl => absurd (hpl s1.n) (by simp [ha]), ?_⟩
          simp only [] at h4 ⊢; omega
        | true =>
          have hmem : Members e [("maxLength", integerJson a.maxLength)] [("maxLength", numDoc m)] := by
            rw [hma]; exact .cons _ _ _ _ _ (prints_integer e m hmw) .nil
          obtain ⟨r2, s2, g1, g2, g3, g4⟩ := fillObj_ok e (held + (J.arr done).nodes) _ _ hmem ms ⟨s1.n + 1, s1.live⟩
          have hd : (allMembers [("maxLength", numDoc m)]).map (fun x => J.obj (ms ++ x)) = some (J.obj (ms ++ [("maxLength", .int (twos m))])) := rfl
          rw [hd] at g2 g3
          cases r2 with
          | none =>
            refine ⟨none, s2, by simp only [fillAddrs, h1, ha, if_true, g1], (fun _ h => by cases h), fun hpl => (by cases g3 hpl), ?_⟩
            simp only [] at h4 g4 ⊢
            push_cast at g4
            omega
          | some j2 =>
            have hj2 := g2 j2 rfl
            have hj2' : J.obj (ms ++ [("maxLength", .int (twos m))]) = j2 := Option.some.inj hj2
            subst hj2'
            obtain ⟨r3, s3, k1, k2, k3, k4⟩ := ih (done ++ [J.obj (ms ++ [("maxLength", .int (twos m))])]) s2
            have hde : ((all (some (J.obj (ms ++ [("maxLength", .int (twos m))])) ::
                l.map (fun a => (g a).bind (fun ms => a.maxLength.map (fun m => J.obj (ms ++ [("maxLength", .int (twos m))])))))).map (fun ms => J.arr (done ++ ms))) =
                (all (l.map (fun a => (g a).bind (fun ms => a.maxLength.map (fun m => J.obj (ms ++ [("maxLength", .int (twos m))])))))).map
                  (fun x => J.arr (done ++ [J.obj (ms ++ [("maxLength", .int (twos m))])] ++ x)) := by
              simp only [all, Option.map_map]
              congr 1
              funext x
              simp
            refine ⟨r3, s3, by simp only [fillAddrs, h1, ha, if_true, g1]; exact k1, ?_, ?_, ?_⟩
            · intro j hj; rw [← k2 j hj]; exact hde
            · intro hpl; rw [k3 hpl]; exact hde.symm
            · have hn : (J.arr (done ++ [J.obj (ms ++ [("maxLength", .int (twos m))])])).nodes = (J.arr done).nodes + (J.obj (ms ++ [("maxLength", .int (twos m))])).nodes := by
                simp [J.nodes, nodesL_append, nodesL]; omega
              rw [hn] at k4
              simp only [] at h4 g4 k4 ⊢
              push_cast at g4 k4
              rw [k4]
              omega

end Verif.Print
