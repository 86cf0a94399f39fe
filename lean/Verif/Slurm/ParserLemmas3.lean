import Verif.Slurm.ParserLemmas2
/-
Characterisation of the BGPsec rules the SLURM parser accepts.
-/
namespace Verif.Slurm
open Verif.Res
open Verif.Rtr (Fam)

/-- What the libraries are assumed to do: base64 makes three bytes out of four characters, and no DER
SubjectPublicKeyInfo has fewer than 10 bytes (the algorithm identifiers alone take more). -/
structure Env.Ok (env : Env) : Prop where
  b64Len : ∀ s d, env.b64 s = some d → 4 * d.length ≤ 3 * s.length
  spkiLen : ∀ d, env.spkiOk d = true → 10 ≤ d.length

/-- The memory block `base64url_decode` returns. -/
def b64Buf (s d : List Byte) : List Byte :=
  d ++ List.replicate ((s.length + (4 - s.length % 4) % 4 + 3) / 4 * 3 + 80 + 1 - d.length) 0

theorem base64urlDecode_some {env : Env} {s d buf : List Byte} (hs : 0x3D ∉ s) :
    base64urlDecode env s = some (d, buf) ↔ B64Text env s d ∧ buf = b64Buf s d := by
  have hpad : (if s.length % 4 > 0 then 4 - s.length % 4 else 0) = (4 - s.length % 4) % 4 := by
    have := Nat.mod_lt s.length (show 4 > 0 by norm_num)
    split <;> omega
  unfold base64urlDecode B64Text
  simp only [hpad, hs, not_false_eq_true, true_and]
  cases h : env.b64 (s.map (fun b => if b = 0x2D then 0x2B else if b = 0x5F then 0x2F else b) ++
      List.replicate ((4 - s.length % 4) % 4) 0x3D) with
  | none => simp
  | some e =>
    simp only [List.length_append, List.length_map, List.length_replicate, Option.some.injEq]
    by_cases he : e.length = 0
    · rw [if_pos he]
      simp only [reduceCtorEq, ne_eq, false_iff, not_and]
      rintro ⟨h1, rfl⟩
      exact absurd (List.length_eq_zero_iff.1 he) h1
    · rw [if_neg he]
      simp only [Option.some.injEq, Prod.mk.injEq]
      constructor
      · rintro ⟨rfl, rfl⟩
        exact ⟨⟨by rintro rfl; exact he rfl, rfl⟩, rfl⟩
      · rintro ⟨⟨h1, rfl⟩, rfl⟩
        exact ⟨rfl, rfl⟩

theorem setSki_ok {env o ia r n x} : setSki env o ia r n = .ok x ↔
    (o.lookup "SKI" = none ∧ ia = false ∧ x = (r, n)) ∨
    ∃ d s, o.lookup "SKI" = some (.str s) ∧ B64Text env s d ∧ d.length = 20 ∧
      x = ({ r with ski := b64Buf s d, flag := r.flag ||| fSki }, n + 1) := by
  unfold setSki
  rw [bind_eq_ok]
  constructor
  · rintro ⟨y, h1, h2⟩
    rw [getStr_ok] at h1
    cases y with
    | none =>
      simp only at h1 h2
      cases ia with
      | true => simp at h2
      | false => exact Or.inl ⟨h1, rfl, by simpa using h2.symm⟩
    | some s =>
      simp only at h1 h2
      right
      split at h2
      · simp at h2
      · rename_i hs
        cases hd : base64urlDecode env s with
        | none => simp [hd] at h2
        | some db =>
          obtain ⟨d, buf⟩ := db
          simp only [hd] at h2
          obtain ⟨k1, rfl⟩ := (base64urlDecode_some hs).1 hd
          split at h2
          · simp at h2
          · rename_i hl
            exact ⟨d, s, h1, k1, by omega, by simpa using h2.symm⟩
  · rintro (⟨h1, rfl, rfl⟩ | ⟨d, s, h1, h2, h3, rfl⟩)
    · exact ⟨none, getStr_ok.2 h1, rfl⟩
    · refine ⟨some s, getStr_ok.2 h1, ?_⟩
      have hs := h2.1
      simp only
      rw [if_neg hs, (base64urlDecode_some hs).2 ⟨h2, rfl⟩]
      simp [h3]

theorem setSki_crash {env o ia r n} : setSki env o ia r n ≠ .crash := by
  unfold setSki
  rw [Ne, bind_eq_crash]
  rintro (h | ⟨a, -, h⟩)
  · exact getStr_crash h
  · cases a with
    | none => cases ia <;> simp at h
    | some s =>
      simp only at h
      split at h
      · simp at h
      · split at h
        · simp at h
        · split at h <;> simp at h

theorem setKey_ok {env o ia r n x} : setRouterPubKey env o ia r n = .ok x ↔
    (o.lookup "routerPublicKey" = none ∧ ia = false ∧ x = (r, n)) ∨
    ∃ d s, o.lookup "routerPublicKey" = some (.str s) ∧ ia = true ∧ B64Text env s d ∧ env.spkiOk d = true ∧
      x = ({ r with spk := b64Buf s d, flag := r.flag ||| fKey }, n + 1) := by
  unfold setRouterPubKey
  rw [bind_eq_ok]
  constructor
  · rintro ⟨y, h1, h2⟩
    rw [getStr_ok] at h1
    cases ia with
    | false =>
      cases y with
      | none => exact Or.inl ⟨h1, rfl, by simpa using h2.symm⟩
      | some s => simp at h2
    | true =>
      cases y with
      | none => simp at h2
      | some s =>
        simp only [Bool.not_true, Bool.false_eq_true, ite_false] at h1 h2
        right
        split at h2
        · simp at h2
        · rename_i hs
          cases hd : base64urlDecode env s with
          | none => simp [hd] at h2
          | some db =>
            obtain ⟨d, buf⟩ := db
            simp only [hd] at h2
            obtain ⟨k1, rfl⟩ := (base64urlDecode_some hs).1 hd
            split at h2
            · simp at h2
            · rename_i hl
              exact ⟨d, s, h1, rfl, k1, by simpa using hl, by simpa using h2.symm⟩
  · rintro (⟨h1, rfl, rfl⟩ | ⟨d, s, h1, rfl, h2, h3, rfl⟩)
    · exact ⟨none, getStr_ok.2 h1, rfl⟩
    · refine ⟨some s, getStr_ok.2 h1, ?_⟩
      have hs := h2.1
      simp only [Bool.not_true, Bool.false_eq_true, ite_false]
      rw [if_neg hs, (base64urlDecode_some hs).2 ⟨h2, rfl⟩]
      simp [h3]

theorem setKey_crash {env o ia r n} : setRouterPubKey env o ia r n ≠ .crash := by
  unfold setRouterPubKey
  rw [Ne, bind_eq_crash]
  rintro (h | ⟨a, -, h⟩)
  · exact getStr_crash h
  · cases ia with
    | false => cases a <;> simp at h
    | true =>
      cases a with
      | none => simp at h
      | some s =>
        simp only [Bool.not_true, Bool.false_eq_true, ite_false] at h
        split at h
        · simp at h
        · split at h
          · simp at h
          · split at h <;> simp at h

/-- Flags of a rule with these members. -/
def BgpsMembers.flag (m : BgpsMembers) : BitVec 8 :=
  (if m.asn.isSome then fAsn else 0) ||| (if m.ski.isSome then fSki else 0) |||
    (if m.key.isSome then fKey else 0) ||| (if m.comment then fComment else 0)

/-- Number of members. -/
def BgpsMembers.count (m : BgpsMembers) : Nat :=
  (if m.asn.isSome then 1 else 0) + (if m.ski.isSome then 1 else 0) +
    (if m.key.isSome then 1 else 0) + (if m.comment then 1 else 0)

/-- A stored rule with these members: the SKI and key blocks begin with the decoded values, zeros follow. -/
structure BgpsMembers.Stored (env : Env) (m : BgpsMembers) (r : SBgpsec) : Prop where
  flag : r.flag = m.flag
  asn : r.asn = m.asn.getD 0
  ski : ∀ d, m.ski = some d → ∃ z, r.ski = d ++ List.replicate z 0
  key : ∀ d, m.key = some d → ∃ z, r.spk = d ++ List.replicate z 0
  spkLen : env.Ok → ∀ d, m.key = some d → 91 ≤ r.spk.length

/-- The checks that end `load_single_bgpsec`. -/
def finishBgpsec (o : List (String × Json)) (ia : Bool) (r : SBgpsec) (n : Nat) : Out SBgpsec :=
  if r.flag = fComment then .err false
  else if !ia then
    if r.flag &&& (fAsn ||| fSki) = 0 then .err false
    else if !validMembersCount o n then .err false
    else .ok r
  else if !validMembersCount o n then .err false
  else .ok r

theorem parseBgpsec_obj (env : Env) (o : List (String × Json)) (ia : Bool) :
    parseBgpsec env (.obj o) ia = (do
      let (asn, flag, n) ← setAsn o ia 0 0 0
      let (r, n) ← setSki env o ia { initBgpsec with asn, flag } n
      let (r, n) ← setRouterPubKey env o ia r n
      let (flag, n) ← setComment o r.flag n
      finishBgpsec o ia { r with flag } n) := rfl

theorem finishBgpsec_ok {o : List (String × Json)} {ia : Bool} {r x : SBgpsec} {n : Nat} :
    finishBgpsec o ia r n = .ok x ↔ x = r ∧ o.length = n ∧ r.flag ≠ fComment ∧
      (if ia then True else r.flag &&& (fAsn ||| fSki) ≠ 0) := by
  unfold finishBgpsec validMembersCount
  by_cases h1 : r.flag = fComment
  · simp [h1]
  · rw [if_neg h1]
    cases ia with
    | false =>
      simp only [Bool.not_false, ite_true]
      by_cases h2 : r.flag &&& (fAsn ||| fSki) = 0
      · rw [if_pos h2]
        constructor
        · intro h; simp at h
        · rintro ⟨-, -, -, h⟩; exact absurd h2 h
      · rw [if_neg h2]
        by_cases h3 : o.length = n
        · simp only [h3, decide_true, Bool.not_true, Bool.false_eq_true, ite_false, Out.ok.injEq, true_and]
          constructor
          · intro h; exact ⟨h.symm, h1, h2⟩
          · rintro ⟨rfl, -, -⟩; rfl
        · simp [h3]
    | true =>
      simp only [Bool.not_true, Bool.false_eq_true, ite_false]
      by_cases h3 : o.length = n
      · simp only [h3, decide_true, Bool.not_true, Bool.false_eq_true, ite_false, Out.ok.injEq, true_and, ite_true]
        constructor
        · intro h; exact ⟨h.symm, h1, trivial⟩
        · rintro ⟨rfl, -, -⟩; rfl
      · simp [h3]

theorem finishBgpsec_crash {o ia r n} : finishBgpsec o ia r n ≠ .crash := by
  unfold finishBgpsec
  split
  · simp
  · split
    · split
      · simp
      · split <;> simp
    · split <;> simp

theorem b64Buf_len {env : Env} (he : env.Ok) {s d : List Byte} (h : B64Text env s d) (hk : env.spkiOk d = true) :
    91 ≤ (b64Buf s d).length := by
  have h1 := he.spkiLen d hk
  have h2 := he.b64Len _ _ h.2.2
  simp only [List.length_append, List.length_map, List.length_replicate] at h2
  simp only [b64Buf, List.length_append, List.length_replicate]
  omega

theorem parseBgpsec_sound {env : Env} {o : List (String × Json)} {ia : Bool} {r : SBgpsec}
    (h : parseBgpsec env (.obj o) ia = .ok r) :
    ∃ m : BgpsMembers, m.Of env o ∧ m.Valid ia ∧ o.length = m.count ∧ m.Stored env r := by
  rw [parseBgpsec_obj] at h
  obtain ⟨⟨asn, flag, n⟩, h1, h⟩ := bind_eq_ok.1 h
  obtain ⟨⟨r2, n2⟩, h2, h⟩ := bind_eq_ok.1 h
  obtain ⟨⟨r3, n3⟩, h3, h⟩ := bind_eq_ok.1 h
  obtain ⟨⟨f4, n4⟩, h4, h⟩ := bind_eq_ok.1 h
  rw [setAsn_ok] at h1
  rw [setSki_ok] at h2
  rw [setKey_ok] at h3
  rw [setComment_ok] at h4
  rw [finishBgpsec_ok] at h
  obtain ⟨rfl, hlen, hfc, hx⟩ := h
  obtain ⟨c, hc, hc4, hn4⟩ : ∃ c : Bool, (if c then ∃ s, o.lookup "comment" = some (.str s) else o.lookup "comment" = none) ∧
      f4 = (r3.flag ||| if c then fComment else 0) ∧ n4 = n3 + if c then 1 else 0 := by
    rcases h4 with ⟨a, b⟩ | ⟨a, b⟩
    · simp only [Prod.mk.injEq] at b
      exact ⟨false, by simpa using a, by simp [b.1], by simp [b.2]⟩
    · simp only [Prod.mk.injEq] at b
      exact ⟨true, by simpa using a, by simp [b.1], by simp [b.2]⟩
  subst hc4
  rcases h1 with ⟨a1, hia, b1⟩ | ⟨a, a1, b1⟩
  · subst hia
    simp only [Prod.mk.injEq] at b1
    obtain ⟨rfl, rfl, rfl⟩ := b1
    rcases h3 with ⟨a3, -, b3⟩ | ⟨d3, s3, a3, hf, -⟩
    · simp only [Prod.mk.injEq] at b3
      obtain ⟨rfl, rfl⟩ := b3
      rcases h2 with ⟨a2, -, b2⟩ | ⟨d, s, a2, t2, p2, b2⟩
      · simp only [Prod.mk.injEq] at b2
        obtain ⟨rfl, rfl⟩ := b2
        cases c <;> simp at hfc hx
      · simp only [Prod.mk.injEq] at b2
        obtain ⟨rfl, rfl⟩ := b2
        refine ⟨⟨none, some d, none, c⟩, ⟨a1, ⟨s, a2, t2, p2⟩, a3, hc⟩, ?_, ?_, ?_, ?_, ?_, ?_, ?_⟩
        · simp [BgpsMembers.Valid]
        · rw [hlen, hn4]; simp [BgpsMembers.count]
        · cases c <;> simp [BgpsMembers.flag]
        · rfl
        · intro e he; cases he; exact ⟨_, rfl⟩
        · simp
        · simp
    · simp at hf
  · simp only [Prod.mk.injEq] at b1
    obtain ⟨rfl, rfl, rfl⟩ := b1
    rcases h2 with ⟨a2, hia, b2⟩ | ⟨d, s, a2, t2, p2, b2⟩
    · subst hia
      simp only [Prod.mk.injEq] at b2
      obtain ⟨rfl, rfl⟩ := b2
      rcases h3 with ⟨a3, -, b3⟩ | ⟨d3, s3, a3, hf, -⟩
      · simp only [Prod.mk.injEq] at b3
        obtain ⟨rfl, rfl⟩ := b3
        refine ⟨⟨some asn, none, none, c⟩, ⟨a1, a2, a3, hc⟩, ?_, ?_, ?_, rfl, ?_, ?_, ?_⟩
        · simp [BgpsMembers.Valid]
        · rw [hlen, hn4]; simp [BgpsMembers.count]
        · cases c <;> simp [BgpsMembers.flag]
        · simp
        · simp
        · simp
      · simp at hf
    · simp only [Prod.mk.injEq] at b2
      obtain ⟨rfl, rfl⟩ := b2
      rcases h3 with ⟨a3, hia, b3⟩ | ⟨d3, s3, a3, hia, t3, p3, b3⟩
      · subst hia
        simp only [Prod.mk.injEq] at b3
        obtain ⟨rfl, rfl⟩ := b3
        refine ⟨⟨some asn, some d, none, c⟩, ⟨a1, ⟨s, a2, t2, p2⟩, a3, hc⟩, ?_, ?_, ?_, rfl, ?_, ?_, ?_⟩
        · simp [BgpsMembers.Valid]
        · rw [hlen, hn4]; simp [BgpsMembers.count]
        · cases c <;> simp [BgpsMembers.flag]
        · intro e he; cases he; exact ⟨_, rfl⟩
        · simp
        · simp
      · subst hia
        simp only [Prod.mk.injEq] at b3
        obtain ⟨rfl, rfl⟩ := b3
        refine ⟨⟨some asn, some d, some d3, c⟩, ⟨a1, ⟨s, a2, t2, p2⟩, ⟨s3, a3, t3, p3⟩, hc⟩, ?_, ?_, ?_, rfl, ?_, ?_, ?_⟩
        · simp [BgpsMembers.Valid]
        · rw [hlen, hn4]; simp [BgpsMembers.count]
        · cases c <;> simp [BgpsMembers.flag]
        · intro e he; cases he; exact ⟨_, rfl⟩
        · intro e he; cases he; exact ⟨_, rfl⟩
        · intro hen e he; cases he; exact b64Buf_len hen t3 p3

theorem parseBgpsec_complete {env : Env} {o : List (String × Json)} {ia : Bool} {m : BgpsMembers} (hm : m.Of env o)
    (hv : m.Valid ia) (hl : o.length = m.count) : ∃ r, parseBgpsec env (.obj o) ia = .ok r := by
  obtain ⟨asn, ski, key, c⟩ := m
  obtain ⟨m1, m2, m3, m4⟩ := hm
  rw [parseBgpsec_obj]
  have stepA : setAsn o ia 0 0 0 = .ok (asn.getD 0, (if asn.isSome then fAsn else 0), (if asn.isSome then 1 else 0)) := by
    rw [setAsn_ok]
    cases asn with
    | none =>
      cases ia with
      | false => exact Or.inl ⟨m1, rfl, rfl⟩
      | true => simp [BgpsMembers.Valid] at hv
    | some a => exact Or.inr ⟨a, m1, by simp⟩
  have stepS (r n) : ∃ b, setSki env o ia r n =
      .ok (⟨r.flag ||| (if ski.isSome then fSki else 0), r.asn, b, r.spk⟩, n + if ski.isSome then 1 else 0) := by
    cases ski with
    | none =>
      cases ia with
      | false => exact ⟨r.ski, setSki_ok.2 (Or.inl ⟨m2, rfl, by simp⟩)⟩
      | true => simp [BgpsMembers.Valid] at hv
    | some p =>
      obtain ⟨s, a, b, d⟩ := m2
      exact ⟨_, setSki_ok.2 (Or.inr ⟨p, s, a, b, d, rfl⟩)⟩
  have stepK (r n) : ∃ b, setRouterPubKey env o ia r n =
      .ok (⟨r.flag ||| (if key.isSome then fKey else 0), r.asn, r.ski, b⟩, n + if key.isSome then 1 else 0) := by
    cases key with
    | none =>
      cases ia with
      | false => exact ⟨r.spk, setKey_ok.2 (Or.inl ⟨m3, rfl, by simp⟩)⟩
      | true => simp [BgpsMembers.Valid] at hv
    | some p =>
      cases ia with
      | false => simp [BgpsMembers.Valid] at hv
      | true =>
        obtain ⟨s, a, b, d⟩ := m3
        exact ⟨_, setKey_ok.2 (Or.inr ⟨p, s, a, rfl, b, d, rfl⟩)⟩
  have stepC (f n) : setComment o f n = .ok (f ||| (if c then fComment else 0), n + if c then 1 else 0) := by
    rw [setComment_ok]
    cases c with
    | false => exact Or.inl ⟨by simpa using m4, by simp⟩
    | true => exact Or.inr ⟨by simpa using m4, by simp⟩
  rw [stepA, ok_bind]
  simp only []
  obtain ⟨b1, e1⟩ := stepS { initBgpsec with asn := asn.getD 0, flag := if asn.isSome then fAsn else 0 }
    (if asn.isSome then 1 else 0)
  rw [e1, ok_bind]
  simp only []
  obtain ⟨b2, e2⟩ := stepK ⟨(if asn.isSome then fAsn else 0) ||| (if ski.isSome then fSki else 0), asn.getD 0, b1, []⟩
    ((if asn.isSome then 1 else 0) + if ski.isSome then 1 else 0)
  simp only [initBgpsec] at e2 ⊢
  rw [e2, ok_bind]
  simp only []
  rw [stepC, ok_bind]
  simp only []
  refine ⟨_, finishBgpsec_ok.2 ⟨rfl, ?_, ?_, ?_⟩⟩
  · rw [hl]; simp [BgpsMembers.count]
  · cases ia <;> cases asn <;> cases ski <;> cases key <;> cases c <;> simp [BgpsMembers.Valid] at hv <;> simp
  · cases ia <;> cases asn <;> cases ski <;> cases key <;> cases c <;> simp [BgpsMembers.Valid] at hv <;> simp

theorem parseBgpsec_crash {env : Env} {o : List (String × Json)} {ia : Bool} : parseBgpsec env (.obj o) ia ≠ .crash := by
  rw [parseBgpsec_obj]
  intro h
  rcases bind_eq_crash.1 h with h | ⟨⟨asn, flag, n⟩, h1, h⟩
  · exact absurd h setAsn_crash
  rcases bind_eq_crash.1 h with h | ⟨⟨r2, n2⟩, h2, h⟩
  · exact absurd h setSki_crash
  rcases bind_eq_crash.1 h with h | ⟨⟨r3, n3⟩, h3, h⟩
  · exact absurd h setKey_crash
  rcases bind_eq_crash.1 h with h | ⟨⟨f4, n4⟩, h4, h⟩
  · exact absurd h setComment_crash
  · exact absurd h finishBgpsec_crash

end Verif.Slurm
