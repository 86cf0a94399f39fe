import Verif.Slurm.ParserLemmas
import Mathlib.Data.List.Nodup
import Mathlib.Data.List.Perm.Subperm
/-
Characterisation of the rules the SLURM parser accepts.
-/
namespace Verif.Slurm
open Verif.Res
open Verif.Rtr (Fam)

theorem lookup_ne_none {o : List (String × Json)} {k : String} : o.lookup k ≠ none ↔ k ∈ o.map Prod.fst := by
  induction o with
  | nil => simp
  | cons x o ih =>
    obtain ⟨a, b⟩ := x
    rw [List.lookup_cons]
    by_cases h : k = a
    · subst h; simp
    · have : (k == a) = false := by simpa using h
      rw [this]
      simp only [List.map_cons, List.mem_cons, h, false_or]
      exact ih

/-- Counting the members that are known tells whether all are. -/
theorem count_known {o : List (String × Json)} (ho : Distinct o) {known : List String} (hk : known.Nodup) {c : Nat}
    (hc : c = (known.filter (fun k => (o.lookup k).isSome)).length) :
    o.length = c ↔ ∀ k ∈ o.map Prod.fst, k ∈ known := by
  have hpn : (known.filter (fun k => (o.lookup k).isSome)).Nodup := hk.filter _
  have hps : known.filter (fun k => (o.lookup k).isSome) ⊆ o.map Prod.fst := by
    intro k hk
    rw [List.mem_filter] at hk
    exact lookup_ne_none.1 (by cases h : o.lookup k <;> simp_all)
  have hsub := hpn.subperm hps
  constructor
  · intro h k hk'
    have hp := hsub.perm_of_length_le (by rw [List.length_map, ← hc, h])
    exact (List.mem_filter.1 ((hp.mem_iff).2 hk')).1
  · intro h
    have h2 : o.map Prod.fst ⊆ known.filter (fun k => (o.lookup k).isSome) := by
      intro k hk'
      rw [List.mem_filter]
      refine ⟨h k hk', ?_⟩
      have := lookup_ne_none.2 hk'
      cases hh : o.lookup k <;> simp_all
    have := (ho.subperm h2).length_le
    have h3 := hsub.length_le
    rw [List.length_map] at this h3
    omega

/-! ### Prefix rules -/

/-- Flags of a rule with these members. -/
def PfxMembers.flag (m : PfxMembers) : BitVec 8 :=
  (if m.asn.isSome then fAsn else 0) ||| (if m.pfx.isSome then fPrefix else 0) |||
    (if m.max.isSome then fMaxLen else 0) ||| (if m.comment then fComment else 0)

/-- Number of members. -/
def PfxMembers.count (m : PfxMembers) : Nat :=
  (if m.asn.isSome then 1 else 0) + (if m.pfx.isSome then 1 else 0) +
    (if m.max.isSome then 1 else 0) + (if m.comment then 1 else 0)

/-- The stored rule with these members. -/
def PfxMembers.rule (m : PfxMembers) : SPrefix :=
  ⟨m.flag, m.asn.getD 0, m.pfx.map Pfx.fam, BitVec.ofNat 128 ((m.pfx.map Pfx.addr).getD 0),
    BitVec.ofNat 8 ((m.pfx.map Pfx.len).getD 0), BitVec.ofNat 8 (m.max.getD 0)⟩

/-- The checks that end `load_single_prefix`. -/
def finishPrefix (o : List (String × Json)) (ia : Bool) (r : SPrefix) (n : Nat) : Out SPrefix :=
  if r.flag = fComment then .err false
  else if !ia then
    if r.flag &&& (fAsn ||| fPrefix) = 0 then .err false
    else if !validMembersCount o n then .err false
    else .ok r
  else if r.flag &&& fMaxLen > 0 ∧ r.len > r.maxLen then .err false
  else if !validMembersCount o n then .err false
  else .ok r

theorem parsePrefix_obj (env : Env) (o : List (String × Json)) (ia : Bool) :
    parsePrefix env (.obj o) ia = (do
      let (asn, flag, n) ← setAsn o ia 0 0 0
      let (r, n) ← setPrefix env o ia { initPrefix with asn, flag } n
      let (r, n) ← setMaxPrefixLength o ia r n
      let (flag, n) ← setComment o r.flag n
      finishPrefix o ia { r with flag } n) := rfl

theorem finishPrefix_ok {o : List (String × Json)} {ia : Bool} {r x : SPrefix} {n : Nat} :
    finishPrefix o ia r n = .ok x ↔ x = r ∧ o.length = n ∧ r.flag ≠ fComment ∧
      (if ia then ¬ (r.flag &&& fMaxLen > 0 ∧ r.len > r.maxLen) else r.flag &&& (fAsn ||| fPrefix) ≠ 0) := by
  unfold finishPrefix validMembersCount
  by_cases h1 : r.flag = fComment
  · simp [h1]
  · rw [if_neg h1]
    cases ia with
    | false =>
      simp only [Bool.not_false, ite_true]
      by_cases h2 : r.flag &&& (fAsn ||| fPrefix) = 0
      · rw [if_pos h2]
        constructor
        · intro h; simp at h
        · rintro ⟨-, -, -, h⟩; exact absurd h2 h
      · rw [if_neg h2]
        by_cases h3 : o.length = n
        · simp only [h3, decide_true, Bool.not_true, Bool.false_eq_true, ite_false, Out.ok.injEq, true_and]
          constructor
          · intro h; exact ⟨h.symm, h1, h2⟩
          · rintro ⟨rfl, -, -⟩; rfl
        · simp [h3]
    | true =>
      simp only [Bool.not_true, Bool.false_eq_true, ite_false]
      by_cases h2 : r.flag &&& fMaxLen > 0 ∧ r.len > r.maxLen
      · rw [if_pos h2]
        constructor
        · intro h; simp at h
        · rintro ⟨-, -, -, h⟩; exact absurd h2 h
      · rw [if_neg h2]
        by_cases h3 : o.length = n
        · simp only [h3, decide_true, Bool.not_true, Bool.false_eq_true, ite_false, Out.ok.injEq, true_and, ite_true]
          constructor
          · intro h; exact ⟨h.symm, h1, h2⟩
          · rintro ⟨rfl, -, -⟩; rfl
        · simp [h3]

theorem finishPrefix_crash {o ia r n} : finishPrefix o ia r n ≠ .crash := by
  unfold finishPrefix
  split
  · simp
  · split
    · split
      · simp
      · split <;> simp
    · split
      · simp
      · split <;> simp

theorem parsePrefix_ok {env : Env} {o : List (String × Json)} {ia : Bool} {r : SPrefix} :
    parsePrefix env (.obj o) ia = .ok r ↔
      ∃ m : PfxMembers, m.Of env o ∧ m.Valid ia ∧ o.length = m.count ∧ r = m.rule := by
  rw [parsePrefix_obj]
  constructor
  · intro h
    obtain ⟨⟨asn, flag, n⟩, h1, h⟩ := bind_eq_ok.1 h
    obtain ⟨⟨r2, n2⟩, h2, h⟩ := bind_eq_ok.1 h
    obtain ⟨⟨r3, n3⟩, h3, h⟩ := bind_eq_ok.1 h
    obtain ⟨⟨f4, n4⟩, h4, h⟩ := bind_eq_ok.1 h
    rw [setAsn_ok] at h1
    rw [setPrefix_ok] at h2
    rw [setMax_ok] at h3
    rw [setComment_ok] at h4
    rw [finishPrefix_ok] at h
    obtain ⟨rfl, hlen, hfc, hx⟩ := h
    -- the comment
    obtain ⟨c, hc, hc4, hn4⟩ : ∃ c : Bool, (if c then ∃ s, o.lookup "comment" = some (.str s) else o.lookup "comment" = none) ∧
        f4 = (r3.flag ||| if c then fComment else 0) ∧ n4 = n3 + if c then 1 else 0 := by
      rcases h4 with ⟨a, b⟩ | ⟨a, b⟩
      · simp only [Prod.mk.injEq] at b
        exact ⟨false, by simpa using a, by simp [b.1], by simp [b.2]⟩
      · simp only [Prod.mk.injEq] at b
        exact ⟨true, by simpa using a, by simp [b.1], by simp [b.2]⟩
    rcases h1 with ⟨a1, hia, b1⟩ | ⟨a, a1, b1⟩
    · subst hia
      simp only [Prod.mk.injEq] at b1
      obtain ⟨rfl, rfl, rfl⟩ := b1
      rcases h3 with ⟨a3, b3⟩ | ⟨m, a3, hf, -, b3⟩
      · simp only [Prod.mk.injEq] at b3
        obtain ⟨rfl, rfl⟩ := b3
        rcases h2 with ⟨a2, -, b2⟩ | ⟨p, s, a2, t2, p2, b2⟩
        · simp only [Prod.mk.injEq] at b2
          obtain ⟨rfl, rfl⟩ := b2
          subst hc4
          cases c <;> simp [initPrefix] at hfc hx
        · simp only [Prod.mk.injEq] at b2
          obtain ⟨rfl, rfl⟩ := b2
          refine ⟨⟨none, some p, none, c⟩, ⟨a1, ⟨s, a2, t2, p2⟩, a3, hc⟩, ?_, ?_, ?_⟩
          · simp [PfxMembers.Valid]
          · rw [hlen, hn4]; simp [PfxMembers.count]
          · subst hc4
            cases c <;> simp [PfxMembers.rule, PfxMembers.flag, withPfx, initPrefix]
      · simp at hf
    · simp only [Prod.mk.injEq] at b1
      obtain ⟨rfl, rfl, rfl⟩ := b1
      rcases h2 with ⟨a2, hia, b2⟩ | ⟨p, s, a2, t2, p2, b2⟩
      · subst hia
        simp only [Prod.mk.injEq] at b2
        obtain ⟨rfl, rfl⟩ := b2
        rcases h3 with ⟨a3, b3⟩ | ⟨m, a3, hf, -, b3⟩
        · simp only [Prod.mk.injEq] at b3
          obtain ⟨rfl, rfl⟩ := b3
          refine ⟨⟨some asn, none, none, c⟩, ⟨a1, a2, a3, hc⟩, ?_, ?_, ?_⟩
          · simp [PfxMembers.Valid]
          · rw [hlen, hn4]; simp [PfxMembers.count]
          · subst hc4
            cases c <;> simp [PfxMembers.rule, PfxMembers.flag, initPrefix]
        · simp at hf
      · simp only [Prod.mk.injEq] at b2
        obtain ⟨rfl, rfl⟩ := b2
        rcases h3 with ⟨a3, b3⟩ | ⟨m, a3, hf, hm, b3⟩
        · simp only [Prod.mk.injEq] at b3
          obtain ⟨rfl, rfl⟩ := b3
          refine ⟨⟨some asn, some p, none, c⟩, ⟨a1, ⟨s, a2, t2, p2⟩, a3, hc⟩, ?_, ?_, ?_⟩
          · cases ia <;> simp [PfxMembers.Valid]
          · rw [hlen, hn4]; simp [PfxMembers.count]
          · subst hc4
            cases c <;> simp [PfxMembers.rule, PfxMembers.flag, withPfx, initPrefix]
        · subst hf
          simp only [Prod.mk.injEq] at b3
          obtain ⟨rfl, rfl⟩ := b3
          have hm128 : m ≤ width p.fam := by
            cases hf : p.fam <;> simp [withPfx, hf] at hm <;> simpa [width] using hm
          have hm256 : m < 256 := by
            cases hf : p.fam <;> simp [hf, width] at hm128 <;> omega
          have hlm : p.len ≤ m := by
            have hpl := proper_len p2
            have : ¬ ((withPfx ⟨0 ||| fAsn, asn, none, 0, 0, 0⟩ p).len > BitVec.ofNat 8 m) := by
              intro hgt
              rw [if_pos rfl] at hx
              apply hx
              subst hc4
              refine ⟨?_, hgt⟩
              cases c <;> simp [withPfx, initPrefix]
            simp only [withPfx, GT.gt, BitVec.lt_def, BitVec.toNat_ofNat] at this
            omega
          refine ⟨⟨some asn, some p, some m, c⟩, ⟨a1, ⟨s, a2, t2, p2⟩, a3, hc⟩, ?_, ?_, ?_⟩
          · simp [PfxMembers.Valid, hlm, hm128]
          · rw [hlen, hn4]; simp [PfxMembers.count]
          · subst hc4
            cases c <;> simp [PfxMembers.rule, PfxMembers.flag, withPfx, initPrefix]
  · rintro ⟨⟨asn, pfx, max, c⟩, ⟨m1, m2, m3, m4⟩, hv, hl, rfl⟩
    have stepA : setAsn o ia 0 0 0 = .ok (asn.getD 0, (if asn.isSome then fAsn else 0), (if asn.isSome then 1 else 0)) := by
      rw [setAsn_ok]
      cases asn with
      | none =>
        cases ia with
        | false => exact Or.inl ⟨m1, rfl, rfl⟩
        | true => simp [PfxMembers.Valid] at hv
      | some a => exact Or.inr ⟨a, m1, by simp⟩
    have stepP (r n) : setPrefix env o ia r n = .ok (match pfx with
        | none => (r, n)
        | some p => (withPfx r p, n + 1)) := by
      rw [setPrefix_ok]
      cases pfx with
      | none =>
        cases ia with
        | false => exact Or.inl ⟨m2, rfl, rfl⟩
        | true => simp [PfxMembers.Valid] at hv
      | some p =>
        obtain ⟨s, a, b, d⟩ := m2
        exact Or.inr ⟨p, s, a, b, d, rfl⟩
    have stepM (r : SPrefix) (n : Nat) (hr : ∀ p, pfx = some p → r.fam = some p.fam) :
        setMaxPrefixLength o ia r n = .ok (match max with
        | none => (r, n)
        | some m => ({ r with flag := r.flag ||| fMaxLen, maxLen := BitVec.ofNat 8 m }, n + 1)) := by
      rw [setMax_ok]
      cases max with
      | none => exact Or.inl ⟨m3, rfl⟩
      | some m =>
        cases ia with
        | false => simp [PfxMembers.Valid] at hv
        | true =>
          simp only [PfxMembers.Valid, if_true] at hv
          obtain ⟨p, hp, hm⟩ := hv.2
          refine Or.inr ⟨m, m3, rfl, ?_, rfl⟩
          rw [hr p hp]
          have := (hm m rfl).2
          cases hf : p.fam <;> simp [hf, width] at this <;> simpa using this
    have stepC (f n) : setComment o f n = .ok (f ||| (if c then fComment else 0), n + if c then 1 else 0) := by
      rw [setComment_ok]
      cases c with
      | false => exact Or.inl ⟨by simpa using m4, by simp⟩
      | true => exact Or.inr ⟨by simpa using m4, by simp⟩
    rw [stepA, ok_bind]
    simp only []
    rw [stepP, ok_bind]
    cases pfx with
    | none =>
      cases max with
      | some m => cases ia <;> simp [PfxMembers.Valid] at hv
      | none =>
        simp only []
        rw [stepM _ _ (by simp), ok_bind]
        simp only []
        rw [stepC, ok_bind]
        simp only []
        rw [finishPrefix_ok]
        cases ia with
        | true => simp [PfxMembers.Valid] at hv
        | false =>
          cases asn with
          | none => simp [PfxMembers.Valid] at hv
          | some a =>
            refine ⟨?_, ?_, ?_, ?_⟩
            · cases c <;> simp [PfxMembers.rule, PfxMembers.flag, initPrefix]
            · rw [hl]; simp [PfxMembers.count]
            · cases c <;> simp
            · cases c <;> simp
    | some p =>
      simp only []
      rw [stepM _ _ (by intro q hq; cases hq; rfl), ok_bind]
      cases max with
      | none =>
        simp only []
        rw [stepC, ok_bind]
        simp only []
        rw [finishPrefix_ok]
        refine ⟨?_, ?_, ?_, ?_⟩
        · cases c <;> cases asn <;> simp [PfxMembers.rule, PfxMembers.flag, initPrefix, withPfx]
        · rw [hl]; simp [PfxMembers.count]; try omega
        · cases c <;> cases asn <;> simp [initPrefix, withPfx]
        · cases ia <;> cases c <;> cases asn <;> simp [initPrefix, withPfx]
      | some m =>
        cases ia with
        | false => simp [PfxMembers.Valid] at hv
        | true =>
          simp only [PfxMembers.Valid, if_true] at hv
          obtain ⟨q, hq, hm⟩ := hv.2
          obtain ⟨k1, k2⟩ := hm m rfl
          cases hq
          have hm256 : m < 256 := by
            cases hf : p.fam <;> simp [hf, width] at k2 <;> omega
          simp only []
          rw [stepC, ok_bind]
          simp only []
          rw [finishPrefix_ok]
          refine ⟨?_, ?_, ?_, ?_⟩
          · cases c <;> cases asn <;> simp [PfxMembers.rule, PfxMembers.flag, initPrefix, withPfx]
          · rw [hl]; simp [PfxMembers.count]; try omega
          · cases c <;> cases asn <;> simp [initPrefix, withPfx]
          · rw [if_pos rfl]
            rintro ⟨-, hgt⟩
            simp only [withPfx, GT.gt, BitVec.lt_def, BitVec.toNat_ofNat] at hgt
            omega

theorem parsePrefix_crash {env : Env} {o : List (String × Json)} {ia : Bool} :
    parsePrefix env (.obj o) ia = .crash ↔
      (∃ s, o.lookup "prefix" = some (.str s) ∧ ∀ b ∈ s, b = 0x2F) ∧
      (ia = false ∧ o.lookup "asn" = none ∨ ∃ a : BitVec 32, o.lookup "asn" = some (.int a.toNat)) := by
  rw [parsePrefix_obj]
  constructor
  · intro h
    rcases bind_eq_crash.1 h with h | ⟨⟨asn, flag, n⟩, h1, h⟩
    · exact absurd h setAsn_crash
    rcases bind_eq_crash.1 h with h | ⟨⟨r2, n2⟩, h2, h⟩
    · refine ⟨setPrefix_crash.1 h, ?_⟩
      rcases setAsn_ok.1 h1 with ⟨a, b, -⟩ | ⟨a, b, -⟩
      · exact Or.inl ⟨b, a⟩
      · exact Or.inr ⟨a, b⟩
    rcases bind_eq_crash.1 h with h | ⟨⟨r3, n3⟩, h3, h⟩
    · exact absurd h setMax_crash
    rcases bind_eq_crash.1 h with h | ⟨⟨f4, n4⟩, h4, h⟩
    · exact absurd h setComment_crash
    · exact absurd h finishPrefix_crash
  · rintro ⟨hs, ha⟩
    rw [bind_eq_crash]
    right
    have : ∃ x, setAsn o ia 0 0 0 = .ok x := by
      rcases ha with ⟨a, b⟩ | ⟨a, b⟩
      · exact ⟨_, setAsn_ok.2 (Or.inl ⟨b, a, rfl⟩)⟩
      · exact ⟨_, setAsn_ok.2 (Or.inr ⟨a, b, rfl⟩)⟩
    obtain ⟨⟨asn, flag, n⟩, hx⟩ := this
    refine ⟨_, hx, ?_⟩
    rw [bind_eq_crash]
    exact Or.inl (setPrefix_crash.2 hs)

end Verif.Slurm
