import Verif.Cert.Spec
import Mathlib.Tactic.ByContra
/-
Lemmas on names, C strings and decimal digits.
-/
namespace Verif.Cert
open Verif.Res (Byte)

/-- The text of the last attribute of a type. -/
def lastOf (t : AttrType) : List Attr → Option (List Byte)
  | [] => none
  | a :: as => match lastOf t as with
    | some d => some d
    | none => if a.type = t then a.data else none

theorem lastOf_cons (t : AttrType) (a : Attr) (as : List Attr) : lastOf t (a :: as) = (lastOf t as).or (if a.type = t then a.data else none) := by
  rw [lastOf]; cases lastOf t as <;> simp

def Legible (attrs : List Attr) : Prop := ∀ a ∈ attrs, (a.type = .commonName ∨ a.type = .serialNumber) ∧ a.data ≠ none

theorem lastOf_none {t : AttrType} : ∀ {attrs : List Attr}, Legible attrs → (lastOf t attrs = none ↔ ∀ a ∈ attrs, a.type ≠ t)
  | [], _ => by simp [lastOf]
  | a :: as, h => by
    have ih := lastOf_none (t := t) (attrs := as) (fun x hx => h x (List.mem_cons_of_mem _ hx))
    have ha := (h a List.mem_cons_self).2
    unfold lastOf
    cases hl : lastOf t as with
    | some d =>
      simp only [reduceCtorEq, false_iff]
      intro hc
      rw [ih.2 (fun x hx => hc x (List.mem_cons_of_mem _ hx))] at hl
      cases hl
    | none =>
      simp only [List.forall_mem_cons]
      have := ih.1 hl
      by_cases ht : a.type = t
      · rw [if_pos ht]; exact ⟨fun hd => absurd hd ha, fun hh => absurd ht hh.1⟩
      · rw [if_neg ht]; exact ⟨fun _ => ⟨ht, this⟩, fun _ => rfl⟩

theorem lastOf_iff {t : AttrType} {attrs : List Attr} (h : Legible attrs) (d : Option (List Byte)) : lastOf t attrs = d ↔ Last t attrs d := by
  cases d with
  | none => exact lastOf_none h
  | some d =>
    unfold Last
    simp only
    induction attrs with
    | nil => simp [lastOf]
    | cons a as ih =>
      have has : Legible as := fun x hx => h x (List.mem_cons_of_mem _ hx)
      have ih := ih has
      unfold lastOf
      cases hl : lastOf t as with
      | some e =>
        simp only
        rw [hl] at ih
        constructor
        · intro he
          obtain ⟨pre, post, h1, h2⟩ := ih.1 he
          exact ⟨a :: pre, post, by rw [h1]; rfl, h2⟩
        · rintro ⟨pre, post, h1, h2⟩
          cases pre with
          | nil =>
            injection h1 with h1 h3
            subst h3
            rw [(lastOf_none has).2 h2] at hl
            cases hl
          | cons p pre =>
            injection h1 with h1 h3
            exact ih.2 ⟨pre, post, h3, h2⟩
      | none =>
        simp only
        have hn := (lastOf_none has).1 hl
        constructor
        · intro he
          by_cases ht : a.type = t
          · rw [if_pos ht] at he
            refine ⟨[], as, ?_, hn⟩
            rw [List.nil_append, ← ht, ← he]
          · rw [if_neg ht] at he; cases he
        · rintro ⟨pre, post, h1, h2⟩
          cases pre with
          | nil =>
            injection h1 with h1 h3
            rw [h1]; simp
          | cons p pre =>
            injection h1 with h1 h3
            exact absurd rfl (hn ⟨t, some d⟩ (by rw [h3]; simp))

theorem decodeLoop_iff : ∀ (attrs : List Attr) (n n' : Name), decodeLoop attrs n = (n', true) ↔
    Legible attrs ∧ n' = ⟨(lastOf .commonName attrs).or n.commonName, (lastOf .serialNumber attrs).or n.serialNumber, n.buffers + attrs.length⟩
  | [], n, n' => by
    obtain ⟨a, b, c⟩ := n
    simp [decodeLoop, lastOf, Legible, eq_comm]
  | a :: as, n, n' => by
    unfold decodeLoop
    have hleg : Legible (a :: as) ↔ ((a.type = .commonName ∨ a.type = .serialNumber) ∧ a.data ≠ none) ∧ Legible as := by
      unfold Legible; rw [List.forall_mem_cons]
    rw [hleg]
    cases ht : a.type with
    | commonName =>
      cases hd : a.data with
      | none => simp
      | some d =>
        simp only
        rw [decodeLoop_iff as]
        rw [lastOf_cons, lastOf_cons, ht, hd]
        cases lastOf .commonName as <;> cases lastOf .serialNumber as <;> simp [Nat.add_assoc, Nat.add_comm 1]
    | serialNumber =>
      cases hd : a.data with
      | none => simp
      | some d =>
        simp only
        rw [decodeLoop_iff as]
        rw [lastOf_cons, lastOf_cons, ht, hd]
        cases lastOf .commonName as <;> cases lastOf .serialNumber as <;> simp [Nat.add_assoc, Nat.add_comm 1]
    | other nid => simp

theorem readable_iff {attrs : List Attr} : Readable attrs ↔ Legible attrs ∧ lastOf .commonName attrs ≠ none := by
  unfold Readable
  constructor
  · rintro ⟨h1, a, h2, h3⟩
    exact ⟨h1, fun h => (lastOf_none h1).1 h a h2 h3⟩
  · rintro ⟨h1, h2⟩
    refine ⟨h1, ?_⟩
    by_contra hc
    exact h2 ((lastOf_none h1).2 (fun a ha ht => hc ⟨a, ha, ht⟩))

theorem nameDecode_iff (attrs : List Attr) (n : Name) : (nameDecode attrs).1 = some n ↔
    Readable attrs ∧ n = ⟨lastOf .commonName attrs, lastOf .serialNumber attrs, attrs.length⟩ := by
  have hd := decodeLoop_iff attrs ⟨none, none, 0⟩
  simp only [Option.or_none, Nat.zero_add] at hd
  unfold nameDecode
  rw [readable_iff]
  rcases hl : decodeLoop attrs ⟨none, none, 0⟩ with ⟨m, b⟩
  cases b with
  | false =>
    simp only [reduceCtorEq, false_iff]
    rintro ⟨⟨h1, h2⟩, h3⟩
    rw [(hd n).2 ⟨h1, h3⟩] at hl
    simp at hl
  | true =>
    obtain ⟨h1, h2⟩ := (hd m).1 hl
    simp only
    by_cases hc : m.commonName = none
    · rw [if_pos hc]
      simp only [reduceCtorEq, false_iff]
      rintro ⟨⟨h3, h4⟩, h5⟩
      rw [h2] at hc
      exact h4 hc
    · rw [if_neg hc]
      simp only [Option.some.injEq]
      rw [h2] at hc
      constructor
      · intro h; subst h; exact ⟨⟨h1, hc⟩, h2⟩
      · rintro ⟨-, h⟩; rw [h, h2]

theorem nameDecode_isSome (attrs : List Attr) : (nameDecode attrs).1.isSome = true ↔ Readable attrs := by
  rw [Option.isSome_iff_exists]
  constructor
  · rintro ⟨n, h⟩; exact ((nameDecode_iff ..).1 h).1
  · intro h; exact ⟨_, (nameDecode_iff ..).2 ⟨h, rfl⟩⟩

theorem nameDecode_none (attrs : List Attr) : (nameDecode attrs).1 = none ↔ ¬ Readable attrs := by
  rw [← nameDecode_isSome]
  cases (nameDecode attrs).1 <;> simp

/-! ### C strings -/

theorem cstr_upto : ∀ (text : List Byte), Upto text (Ext.cstr text)
  | [] => by simp [Upto, Ext.cstr]
  | b :: bs => by
    have ih := cstr_upto bs
    unfold Upto Ext.cstr at *
    rw [List.takeWhile_cons]
    by_cases hb : b = 0#8
    · simp [hb]
    · rw [if_pos (by simpa using hb)]
      obtain ⟨h1, h2⟩ := ih
      refine ⟨by simp only [List.mem_cons, not_or]; exact ⟨fun h => hb h.symm, h1⟩, ?_⟩
      rcases h2 with h2 | ⟨rest, h2⟩
      · left; exact congrArg _ h2
      · right; exact ⟨rest, by rw [List.cons_append, ← h2]⟩

theorem upto_eq : ∀ {text p : List Byte}, Upto text p → p = Ext.cstr text
  | text, [], h => by
    rcases h.2 with h | ⟨rest, h⟩ <;> rw [h] <;> simp [Ext.cstr]
  | text, b :: p, h => by
    obtain ⟨h1, h2⟩ := h
    simp only [List.mem_cons, not_or] at h1
    have key : ∀ t, Upto t p → b :: p = Ext.cstr (b :: t) := by
      intro t ht
      unfold Ext.cstr
      rw [List.takeWhile_cons, if_pos (by simpa using fun hb : b = 0#8 => h1.1 hb.symm)]
      exact congrArg _ (upto_eq ht)
    rcases h2 with h2 | ⟨rest, h2⟩
    · rw [h2]; exact key p ⟨h1.2, Or.inl rfl⟩
    · rw [h2]; exact key _ ⟨h1.2, Or.inr ⟨rest, rfl⟩⟩

theorem streq_iff (a b : List Byte) : streq a b = true ↔ SameText a b := by
  unfold streq SameText
  rw [decide_eq_true_iff]
  constructor
  · intro h; exact ⟨_, cstr_upto a, h ▸ cstr_upto b⟩
  · rintro ⟨p, h1, h2⟩; rw [← upto_eq h1, ← upto_eq h2]

theorem sameText_of_free {a b : List Byte} (ha : 0#8 ∉ a) (hb : 0#8 ∉ b) : SameText a b ↔ a = b := by
  constructor
  · rintro ⟨p, h1, h2⟩
    rw [upto_eq ⟨ha, Or.inl rfl⟩, ← upto_eq h1, upto_eq h2, ← upto_eq ⟨hb, Or.inl rfl⟩]
  · rintro rfl; exact ⟨a, ⟨ha, Or.inl rfl⟩, ha, Or.inl rfl⟩

theorem validateIssuerName_iff (parent : Option (List Attr)) (issuer : List Attr) : validateIssuerName parent issuer = some true ↔
    ∃ subject, parent = some subject ∧ Readable subject ∧ Readable issuer ∧ SameName subject issuer := by
  unfold validateIssuerName
  cases parent with
  | none => simp
  | some subject =>
    simp only
    have hex : (∃ s, some subject = some s ∧ Readable s ∧ Readable issuer ∧ SameName s issuer) ↔ Readable subject ∧ Readable issuer ∧ SameName subject issuer := by
      constructor
      · rintro ⟨s, h, h'⟩; injection h with h; subst h; exact h'
      · intro h; exact ⟨_, rfl, h⟩
    rw [hex]
    cases hs : (nameDecode subject).1 with
    | none =>
      have := (nameDecode_none _).1 hs
      simp [this]
    | some p =>
      obtain ⟨h1, h2⟩ := (nameDecode_iff ..).1 hs
      simp only
      cases hi : (nameDecode issuer).1 with
      | none =>
        have := (nameDecode_none _).1 hi
        simp [this]
      | some c =>
        obtain ⟨h3, h4⟩ := (nameDecode_iff ..).1 hi
        simp only
        subst h2 h4
        obtain ⟨l1, c1⟩ := readable_iff.1 h1
        obtain ⟨l3, c3⟩ := readable_iff.1 h3
        simp only [h1, h3, true_and]
        unfold nameEquals SameName
        simp only [← lastOf_iff l1, ← lastOf_iff l3]
        cases hx : lastOf .commonName subject with
        | none => exact absurd hx c1
        | some x =>
          cases hy : lastOf .commonName issuer with
          | none => exact absurd hy c3
          | some y =>
            simp only [Option.some.injEq, Bool.and_eq_true, streq_iff]
            apply and_congr
            · constructor
              · intro h; exact ⟨x, y, rfl, rfl, h⟩
              · rintro ⟨x', y', h1, h2, h⟩; subst h1 h2; exact h
            · unfold strEquals
              cases hu : lastOf .serialNumber subject <;> cases hv : lastOf .serialNumber issuer <;> simp [streq_iff]

theorem validateIssuerName_ne_none (parent : Option (List Attr)) (issuer : List Attr) : validateIssuerName parent issuer ≠ none := by
  unfold validateIssuerName
  cases parent with
  | none => simp
  | some subject =>
    simp only
    cases hs : (nameDecode subject).1 with
    | none => simp
    | some p =>
      cases hi : (nameDecode issuer).1 with
      | none => simp
      | some c =>
        obtain ⟨h1, rfl⟩ := (nameDecode_iff ..).1 hs
        obtain ⟨h3, rfl⟩ := (nameDecode_iff ..).1 hi
        have c1 := (readable_iff.1 h1).2
        have c3 := (readable_iff.1 h3).2
        simp only
        unfold nameEquals
        cases hx : lastOf .commonName subject with
        | none => exact absurd hx c1
        | some x =>
          cases hy : lastOf .commonName issuer with
          | none => exact absurd hy c3
          | some y => simp

theorem validateIssuer_iff (env : Env) (type : Ext.CertType) (c : Cert) : validateIssuer (type = .ta) env.parent c.issuer = some true ↔ GoodIssuer env type c := by
  unfold validateIssuer GoodIssuer
  by_cases h : type = .ta
  · rw [if_neg (by simp [h]), if_pos h, Option.some.injEq]
    exact nameDecode_isSome _
  · rw [if_pos (by simp [h]), if_neg h]
    exact validateIssuerName_iff ..

theorem validateIssuer_ne_none (ta : Bool) (parent : Option (List Attr)) (issuer : List Attr) : validateIssuer ta parent issuer ≠ none := by
  unfold validateIssuer
  cases ta with
  | true => simp
  | false => simpa using validateIssuerName_ne_none parent issuer

/-! ### Decimal digits -/

def undec (l : List Char) : Nat := l.foldl (fun acc c => 10 * acc + (c.toNat - 48)) 0

theorem undec_digit : ∀ d < 10, (Nat.digitChar d).toNat - 48 = d := by decide

theorem undec_bn2dec (n : Nat) : undec (bn2dec n) = n := by
  unfold bn2dec
  induction n using Nat.strongRecOn with
  | _ n ih =>
    rw [Nat.toDigits_eq_if (by decide)]
    by_cases h : n < 10
    · rw [if_pos h]
      simp [undec, undec_digit n h]
    · rw [if_neg h]
      have := ih (n / 10) (by omega)
      unfold undec at *
      rw [List.foldl_append, this]
      simp only [List.foldl_cons, List.foldl_nil]
      rw [undec_digit _ (Nat.mod_lt _ (by decide))]
      omega

theorem bn2dec_65537 (n : Nat) : bn2dec n = ['6', '5', '5', '3', '7'] ↔ n = 65537 := by
  constructor
  · intro h
    rw [← undec_bn2dec n, h]; rfl
  · rintro rfl; rfl

/-! ### Keys -/

theorem spkiCmp_eq (a b : Spki) : spkiCmp a b = some (decide (a = b)) := by
  unfold spkiCmp memeq
  obtain ⟨a1, a2⟩ := a
  obtain ⟨b1, b2⟩ := b
  by_cases h1 : a1 = b1
  · subst h1
    by_cases h2 : a2.length = b2.length
    · simp only [ne_eq, not_true_eq_false, if_false, h2, Nat.le_refl, and_self, if_true, Spki.mk.injEq, true_and]
      rw [List.take_of_length_le (by omega), List.take_of_length_le (by omega)]
    · rw [if_neg (by simp), if_pos h2]
      simp only [Spki.mk.injEq, true_and, Option.some.injEq]
      symm
      rw [decide_eq_false_iff_not]
      intro h; exact h2 (congrArg _ h)
  · rw [if_pos h1]; simp [h1]

theorem decodeSpki_iff (d2i : List Byte → Option (Spki × Nat)) (tal : List Byte) (s : Spki) : decodeSpki d2i tal = some s ↔ d2i tal = some (s, tal.length) := by
  unfold decodeSpki
  cases d2i tal with
  | none => simp
  | some p =>
    obtain ⟨t, u⟩ := p
    simp only [ne_eq, Option.some.injEq, Prod.mk.injEq]
    by_cases h : u = tal.length
    · simp [h]
    · simp [h]

end Verif.Cert
