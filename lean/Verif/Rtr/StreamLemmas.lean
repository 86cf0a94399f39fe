/-
Lemmas about the request parser.
-/
import Mathlib.Data.List.Basic
import Verif.Rtr.SpecStream
import Verif.Rtr.PduProps

namespace Verif.Rtr

open Rfc

theorem readU32_toNat (b : List Byte) (h : 4 ≤ b.length) : (readU32 b).toNat = be (b.take 4) := by
  rcases b with _ | ⟨b0, _ | ⟨b1, _ | ⟨b2, _ | ⟨b3, t⟩⟩⟩⟩ <;> try (simp at h; done)
  simp only [readU32, or4_toNat, List.take_succ_cons, List.take_zero, be, List.foldl_cons, List.foldl_nil]
  omega

theorem readU16_toNat (b : List Byte) (h : 2 ≤ b.length) : (readU16 b).toNat = be (b.take 2) := by
  rcases b with _ | ⟨b0, _ | ⟨b1, t⟩⟩ <;> try (simp at h; done)
  have h0 := b0.isLt
  have h1 := b1.isLt
  simp only [readU16, List.take_succ_cons, List.take_zero, be, List.foldl_cons, List.foldl_nil]
  rw [BitVec.toNat_or, BitVec.toNat_shiftLeft, BitVec.toNat_setWidth, BitVec.toNat_setWidth]
  rw [Nat.mod_eq_of_lt (by omega), Nat.mod_eq_of_lt (by omega : b1.toNat < 2 ^ 16), Nat.shiftLeft_eq,
    Nat.mod_eq_of_lt (by omega)]
  rw [Nat.mul_comm, ← Nat.two_pow_add_eq_or_of_lt (by omega)]
  omega

/-- The header, by the RFC. -/
theorem readHdr_fields (b : List Byte) (h : 8 ≤ b.length) :
    (readHdr b).version.toNat = be (field b 0 1) ∧ (readHdr b).type.toNat = be (field b 1 1) ∧
    (readHdr b).m.toNat = be (field b 2 2) ∧ (readHdr b).len.toNat = be (field b 4 4) := by
  refine ⟨?_, ?_, ?_, ?_⟩
  · rcases b with _ | ⟨b0, t⟩
    · simp at h
    · simp [readHdr, field, be]
  · rcases b with _ | ⟨b0, _ | ⟨b1, t⟩⟩
    · simp at h
    · simp at h
    · simp [readHdr, field, be]
  · exact readU16_toNat _ (by rw [List.length_drop]; omega)
  · exact readU32_toNat _ (by rw [List.length_drop]; omega)

theorem readHdr_append (b t : List Byte) (h : 8 ≤ b.length) : readHdr (b ++ t) = readHdr b := by
  rcases b with _ | ⟨b0, _ | ⟨b1, _ | ⟨b2, _ | ⟨b3, _ | ⟨b4, _ | ⟨b5, _ | ⟨b6, _ | ⟨b7, t⟩⟩⟩⟩⟩⟩⟩⟩ <;>
    first
    | (simp at h; done)
    | rfl

/-- What a query looks like to the parser. -/
theorem IsQuery.inv {v : BitVec 8} {b : List Byte} {q : Query} (h : IsQuery v b q) :
    8 ≤ b.length ∧ (readHdr b).version = v ∧ (readHdr b).len.toNat = b.length ∧
    match q with
    | .serial s n => b.length = 12 ∧ (readHdr b).type = 1 ∧ (readHdr b).m = s ∧ readU32 (b.drop 8) = n
    | .reset => b.length = 8 ∧ (readHdr b).type = 2 := by
  unfold IsQuery decode at h
  split at h
  · cases h
  · rename_i hh
    have h8 : 8 ≤ b.length := by omega
    have hl : be (field b 4 4) = b.length := by omega
    obtain ⟨f0, f1, f2, f4⟩ := readHdr_fields b h8
    simp only [Option.map_eq_some_iff] at h
    obtain ⟨body, hb, hp⟩ := h
    simp only [Pdu.mk.injEq] at hp
    obtain ⟨hv, hbody⟩ := hp
    refine ⟨h8, BitVec.eq_of_toNat_eq (by rw [f0, hv]), by rw [f4, hl], ?_⟩
    have np : ∀ n mk, decodePrefix n mk b = some body → ∃ a l m x y, body = mk a l m x y := by
      intro n mk hx
      unfold decodePrefix at hx
      split at hx
      · simp only [Option.map_eq_some_iff] at hx
        obtain ⟨a, _, rfl⟩ := hx
        exact ⟨_, _, _, _, _, rfl⟩
      · cases hx
    have ne : decodeError b = some body → ∃ c x t, body = .errorReport c x t := by
      intro hx
      unfold decodeError at hx
      simp only at hx
      split at hx
      · cases hx; exact ⟨_, _, _, rfl⟩
      · cases hx
    cases q with
    | serial s n =>
      simp only at hbody ⊢
      subst hbody
      split at hb
      case h_2 ht =>
        split at hb
        · rename_i hlen
          simp only [Option.some.injEq, Body.serialQuery.injEq] at hb
          refine ⟨hlen, BitVec.eq_of_toNat_eq (by rw [f1, ht]; rfl), BitVec.eq_of_toNat_eq (by rw [f2, hb.1]), ?_⟩
          apply BitVec.eq_of_toNat_eq
          rw [readU32_toNat _ (by rw [List.length_drop]; omega), ← hb.2]
          rfl
        · cases hb
      case h_5 => obtain ⟨_, _, _, _, _, h⟩ := np _ _ hb; cases h
      case h_6 => obtain ⟨_, _, _, _, _, h⟩ := np _ _ hb; cases h
      case h_10 => obtain ⟨_, _, _, h⟩ := ne hb; cases h
      case h_9 =>
        split at hb
        · simp only [Option.map_eq_some_iff] at hb
          obtain ⟨_, _, h⟩ := hb; cases h
        · cases hb
      case h_7 =>
        split at hb
        · cases hb
        · split at hb <;> cases hb
      case h_11 => cases hb
      all_goals (split at hb <;> cases hb)
    | reset =>
      simp only at hbody ⊢
      subst hbody
      split at hb
      case h_3 ht =>
        split at hb
        · rename_i hlen
          exact ⟨hlen.1, BitVec.eq_of_toNat_eq (by rw [f1, ht]; rfl)⟩
        · cases hb
      case h_5 => obtain ⟨_, _, _, _, _, h⟩ := np _ _ hb; cases h
      case h_6 => obtain ⟨_, _, _, _, _, h⟩ := np _ _ hb; cases h
      case h_10 => obtain ⟨_, _, _, h⟩ := ne hb; cases h
      case h_9 =>
        split at hb
        · simp only [Option.map_eq_some_iff] at hb
          obtain ⟨_, _, h⟩ := hb; cases h
        · cases hb
      case h_7 =>
        split at hb
        · cases hb
        · split at hb <;> cases hb
      case h_11 => cases hb
      all_goals (split at hb <;> cases hb)

/-- The version check accepts the version of the session. -/
theorem validateVersion_ok {ver : Option (BitVec 8)} {v : BitVec 8} (hv : v = 0 ∨ v = 1)
    (hver : ver = none ∨ ver = some v) (raw : List Byte) : validateVersion ver v raw = .ok v := by
  rcases hv with rfl | rfl <;> rcases hver with rfl | rfl <;> rfl

theorem take_append_len (b t : List Byte) : (b ++ t).take b.length = b := by simp

/-- A complete query is parsed. -/
theorem parseOne_query {v : BitVec 8} (hv : v = 0 ∨ v = 1) {b t : List Byte} {q : Query} (h : IsQuery v b q)
    {ver : Option (BitVec 8)} (hver : ver = none ∨ ver = some v) (off : Nat) :
    parseOne ⟨ver, off, b ++ t⟩ = .pdu ⟨some v, off + b.length, t⟩ ⟨v, q, b, false⟩ := by
  obtain ⟨h8, h1, h2, h3⟩ := h.inv
  have hh := readHdr_append b t h8
  have hraw : rawOf (b ++ t) = b := by
    unfold rawOf
    rw [hh, h2, if_pos (by simp), take_append_len]
  unfold parseOne
  simp only
  rw [if_neg (by rw [List.length_append]; omega), hh, hraw, h1]
  have hlen : b.length ≤ 12 := by
    cases q <;> simp only at h3 <;> omega
  rw [if_neg (by rw [h2]; omega), validateVersion_ok hv hver]
  simp only
  unfold loadPdu
  cases q with
  | serial s n =>
    simp only at h3
    obtain ⟨l12, t1, m1, n1⟩ := h3
    have hl : (readHdr b).len = 12 := BitVec.eq_of_toNat_eq (by rw [h2, l12]; rfl)
    rw [if_pos t1]
    unfold loadSerialQuery
    rw [if_neg (by simpa using hl), if_neg (by simp only [List.length_append]; omega)]
    simp only [h1, m1, l12]
    rw [← l12, List.drop_left, List.drop_append_of_le_length (by omega)]
    congr 3
    rw [← n1]
    obtain ⟨c, hc⟩ : ∃ c, b.drop 8 = c := ⟨_, rfl⟩
    rw [hc]
    have : c.length = 4 := by rw [← hc, List.length_drop]; omega
    rcases c with _ | ⟨c0, _ | ⟨c1, _ | ⟨c2, _ | ⟨c3, c⟩⟩⟩⟩ <;> simp at this
    subst this
    rfl
  | reset =>
    simp only at h3
    obtain ⟨l8, t1⟩ := h3
    have hl : (readHdr b).len = 8 := BitVec.eq_of_toNat_eq (by rw [h2, l8]; rfl)
    rw [if_neg (by rw [t1]; decide), if_pos t1]
    unfold loadResetQuery
    rw [if_neg (by simpa using hl), if_neg (by simp only [List.length_append]; omega)]
    simp only [h1, l8]
    have : (b ++ t).drop 8 = t := by have := List.drop_left (l₁ := b) (l₂ := t); rwa [l8] at this
    rw [this]

/-- An incomplete query is left alone. -/
theorem parseOne_partial {v : BitVec 8} (hv : v = 0 ∨ v = 1) {b x : List Byte} {q : Query}
    (h : IsQuery v (b ++ x) q) (hx : x ≠ []) {ver : Option (BitVec 8)} (hver : ver = none ∨ ver = some v) (off : Nat) :
    parseOne ⟨ver, off, b⟩ = .frag (if b.length < 8 then ver else some v) := by
  unfold parseOne
  simp only
  by_cases h8 : b.length < 8
  · rw [if_pos h8, if_pos h8]
  · rw [if_neg h8, if_neg h8]
    obtain ⟨_, h1, h2, h3⟩ := h.inv
    have hh := readHdr_append b x (by omega)
    rw [hh] at h1 h2 h3
    have hxl : 0 < x.length := List.length_pos_iff.2 hx
    rw [List.length_append] at h2 h3
    cases q with
    | reset => simp only at h3; omega
    | serial s n =>
      simp only at h3
      rw [if_neg (by omega), h1, validateVersion_ok hv hver]
      simp only
      unfold loadPdu
      have hl : (readHdr b).len = 12 := BitVec.eq_of_toNat_eq (by rw [h2, h3.1]; rfl)
      rw [if_pos h3.2.1]
      unfold loadSerialQuery
      rw [if_neg (by simpa using hl), if_pos (by simp only; omega)]

/-- Queries of version `v`, one after the other. -/
def Queries (v : BitVec 8) (items : List (List Byte × Query)) : Prop := ∀ i ∈ items, IsQuery v i.1 i.2

/-- `rest` is the beginning of a query, but not all of it. -/
def Incomplete (v : BitVec 8) (rest : List Byte) : Prop := ∃ x q, x ≠ [] ∧ IsQuery v (rest ++ x) q

/-- The version of the stream after it has seen `n` queries and `rest`. -/
def verAfter (ver : Option (BitVec 8)) (v : BitVec 8) (n : Nat) (rest : List Byte) : Option (BitVec 8) :=
  if n = 0 ∧ rest.length < 8 then ver else some v

/-- The request a query gives. -/
def reqOf (v : BitVec 8) (i : List Byte × Query) : Request := ⟨v, i.2, i.1, false⟩

/-- The loop parses all the complete queries and keeps the last one. -/
theorem parseLoop_queries {v : BitVec 8} (hv : v = 0 ∨ v = 1) (items : List (List Byte × Query))
    (hq : Queries v items) (rest : List Byte) (hr : Incomplete v rest) (ver : Option (BitVec 8))
    (hver : ver = none ∨ ver = some v) (off : Nat) (last : Option Request) :
    ∃ off', parseLoop ⟨ver, off, items.flatMap Prod.fst ++ rest⟩ last =
      .fine ⟨verAfter ver v items.length rest, off', rest⟩ ((items.getLast?.map (reqOf v)).or last) := by
  induction items generalizing ver off last with
  | nil =>
    refine ⟨off, ?_⟩
    simp only [List.flatMap_nil, List.nil_append]
    unfold parseLoop
    obtain ⟨x, q, hx, hxq⟩ := hr
    by_cases h0 : rest.length = 0
    · simp only [h0, if_true]
      simp [verAfter, h0]
    · simp only [h0, if_false]
      rw [parseOne_partial hv hxq hx hver off]
      simp only [List.getLast?_nil, Option.map_none, Option.none_or, LoopEnd.fine.injEq, and_true, verAfter,
        List.length_nil, true_and]
  | cons i items ih =>
    have hi := hq i (by simp)
    have h8 := hi.inv.1
    have hfm : (i :: items).flatMap Prod.fst ++ rest = i.1 ++ (items.flatMap Prod.fst ++ rest) := by
      simp [List.flatMap_cons]
    rw [hfm]
    unfold parseLoop
    rw [if_neg (by simp only [List.length_append]; omega)]
    rw [parseOne_query hv hi hver off]
    simp only
    obtain ⟨off', h⟩ := ih (fun j hj => hq j (by simp [hj])) (some v) (Or.inr rfl) (off + i.1.length)
      (some ⟨v, i.2, i.1, false⟩)
    refine ⟨off', ?_⟩
    rw [h]
    have e1 : verAfter (some v) v items.length rest = verAfter ver v (i :: items).length rest := by
      simp [verAfter]
    have e2 : (items.getLast?.map (reqOf v)).or (some ⟨v, i.2, i.1, false⟩) =
        ((i :: items).getLast?.map (reqOf v)).or last := by
      cases items with
      | nil => rfl
      | cons j js =>
        rw [List.getLast?_cons_cons, List.getLast?_eq_some_getLast (by simp)]
        rfl
    rw [e1, e2]

end Verif.Rtr
