import Verif.Slurm.SpecLoad
import Verif.Slurm.ParserLemmas3
/-
Lemmas about the loading of SLURM files.
-/
namespace Verif.Slurm
open Verif.Res
open Verif.Rtr (Fam)

/-! ### What is stored -/

theorem bit0_or4 (a b c d : Bool) : ((if a then fAsn else 0) ||| (if b then fPrefix else 0) |||
    (if c then fMaxLen else 0) ||| (if d then fComment else 0) : BitVec 8).getLsbD 0 = a := by
  revert a b c d; decide
theorem bit2_or4 (a b c d : Bool) : ((if a then fAsn else 0) ||| (if b then fPrefix else 0) |||
    (if c then fMaxLen else 0) ||| (if d then fComment else 0) : BitVec 8).getLsbD 2 = b := by
  revert a b c d; decide
theorem bit3_or4 (a b c d : Bool) : ((if a then fAsn else 0) ||| (if b then fPrefix else 0) |||
    (if c then fMaxLen else 0) ||| (if d then fComment else 0) : BitVec 8).getLsbD 3 = c := by
  revert a b c d; decide
theorem high_or4 (a b c d : Bool) : ((if a then fAsn else 0) ||| (if b then fPrefix else 0) |||
    (if c then fMaxLen else 0) ||| (if d then fComment else 0) : BitVec 8).toNat < 16 := by
  revert a b c d; decide

theorem rule_asn (m : PfxMembers) : m.rule.asn? = m.asn := by
  unfold SPrefix.asn?
  simp only [PfxMembers.rule, PfxMembers.flag, bit0_or4]
  cases m.asn <;> simp

theorem addr_lt {p : Pfx} (h : p.Proper) : p.addr < 2 ^ 128 := by
  have := h.2.1
  cases hf : p.fam <;> simp [hf, width] at this <;> omega

theorem rule_pfx (m : PfxMembers) (h : ∀ p, m.pfx = some p → p.Proper) : m.rule.pfx? = m.pfx := by
  unfold SPrefix.pfx?
  simp only [PfxMembers.rule, PfxMembers.flag, bit2_or4]
  cases hp : m.pfx with
  | none => simp
  | some p =>
    have h1 := h p hp
    have h2 := addr_lt h1
    have h3 := proper_len h1
    obtain ⟨fam, addr, len⟩ := p
    simp only [Option.isSome_some, if_true, Option.map_some, Option.getD_some, BitVec.toNat_ofNat, Option.some.injEq,
      Pfx.mk.injEq, true_and]
    exact ⟨Nat.mod_eq_of_lt h2, Nat.mod_eq_of_lt h3⟩

theorem rule_max (m : PfxMembers) (h : ∀ n, m.max = some n → n < 256) : m.rule.maxLen? = m.max := by
  unfold SPrefix.maxLen?
  simp only [PfxMembers.rule, PfxMembers.flag, bit3_or4]
  cases hp : m.max with
  | none => simp
  | some n => simp [Nat.mod_eq_of_lt (h n hp)]

theorem width_le (f : Fam) : width f ≤ 128 := by cases f <;> simp [width]

theorem max_lt {m : PfxMembers} {ia : Bool} (hv : m.Valid ia) : ∀ n, m.max = some n → n < 256 := by
  intro n hn
  cases ia with
  | false => simp [PfxMembers.Valid, hn] at hv
  | true =>
    simp only [PfxMembers.Valid, if_true] at hv
    obtain ⟨p, hp, h⟩ := hv.2
    have := (h n hn).2
    have := width_le p.fam
    omega

theorem of_proper {env : Env} {o : List (String × Json)} {m : PfxMembers} (h : m.Of env o) :
    ∀ p, m.pfx = some p → p.Proper := by
  intro p hp
  have := h.pfx
  rw [hp] at this
  obtain ⟨s, -, -, h⟩ := this
  exact h

theorem parsePrefix_isObj {env : Env} {j : Json} {ia : Bool} {r : SPrefix} (h : parsePrefix env j ia = .ok r) :
    ∃ o, j = .obj o := by
  cases j <;> simp [parsePrefix] at h
  exact ⟨_, rfl⟩

theorem parseBgpsec_isObj {env : Env} {j : Json} {ia : Bool} {r : SBgpsec} (h : parseBgpsec env j ia = .ok r) :
    ∃ o, j = .obj o := by
  cases j <;> simp [parseBgpsec] at h
  exact ⟨_, rfl⟩

theorem parsePrefix_filter {env : Env} {j : Json} {r : SPrefix} (h : parsePrefix env j false = .ok r) : r.IsFilter := by
  obtain ⟨o, rfl⟩ := parsePrefix_isObj h
  obtain ⟨m, h1, h2, h3, rfl⟩ := parsePrefix_ok.1 h
  have hp := of_proper h1
  have hm := max_lt h2
  simp only [PfxMembers.Valid, Bool.false_eq_true, ite_false] at h2
  refine ⟨by rw [rule_asn, rule_pfx m hp]; exact h2.2, by rw [rule_max m hm]; exact h2.1, ?_,
    by rw [rule_pfx m hp]; exact hp, ?_⟩
  · intro hb
    simp only [PfxMembers.rule, PfxMembers.flag] at hb ⊢
    rw [bit2_or4] at hb
    cases hpf : m.pfx <;> simp_all
  · simp only [PfxMembers.rule, PfxMembers.flag]
    exact high_or4 _ _ _ _

theorem parsePrefix_assertion {env : Env} {j : Json} {r : SPrefix} (h : parsePrefix env j true = .ok r) : r.IsAssertion := by
  obtain ⟨o, rfl⟩ := parsePrefix_isObj h
  obtain ⟨m, h1, h2, h3, rfl⟩ := parsePrefix_ok.1 h
  have hp := of_proper h1
  have hm := max_lt h2
  simp only [PfxMembers.Valid, if_true] at h2
  obtain ⟨h4, p, h5, h6⟩ := h2
  refine ⟨by rw [rule_asn]; exact h4, p, by rw [rule_pfx m hp]; exact h5, hp p h5, ?_⟩
  intro n hn
  rw [rule_max m hm] at hn
  exact h6 n hn

theorem flagB_bit0 (m : BgpsMembers) : m.flag.getLsbD 0 = m.asn.isSome := bit0_or4 _ _ _ _
theorem flagB_bit2 (m : BgpsMembers) : m.flag.getLsbD 2 = m.ski.isSome := bit2_or4 _ _ _ _

theorem stored_asn {env : Env} {m : BgpsMembers} {r : SBgpsec} (h : m.Stored env r) : r.asn? = m.asn := by
  unfold SBgpsec.asn?
  simp only [h.flag, h.asn, flagB_bit0]
  cases m.asn <;> simp

theorem stored_ski {env : Env} {o : List (String × Json)} {m : BgpsMembers} {r : SBgpsec} (hm : m.Of env o)
    (h : m.Stored env r) : r.ski? = m.ski := by
  unfold SBgpsec.ski?
  simp only [h.flag, flagB_bit2]
  cases hs : m.ski with
  | none => simp
  | some d =>
    obtain ⟨z, hz⟩ := h.ski d hs
    have hd : d.length = 20 := by
      have := hm.ski
      rw [hs] at this
      obtain ⟨s, -, -, h⟩ := this
      exact h
    simp [hz, ← hd]

theorem parseBgpsec_filter {env : Env} {j : Json} {r : SBgpsec} (h : parseBgpsec env j false = .ok r) : r.IsFilter := by
  obtain ⟨o, rfl⟩ := parseBgpsec_isObj h
  obtain ⟨m, h1, h2, h3, h4⟩ := parseBgpsec_sound h
  simp only [BgpsMembers.Valid, Bool.false_eq_true, ite_false] at h2
  refine ⟨by rw [stored_asn h4, stored_ski h1 h4]; exact h2.2, ?_, ?_⟩
  · rw [h4.flag]
    have := bit3_or4 m.asn.isSome m.ski.isSome m.key.isSome m.comment
    rw [h2.1] at this
    simp only [BgpsMembers.flag, h2.1]
    exact this
  · rw [h4.flag]
    exact high_or4 _ _ _ _

theorem parseBgpsec_assertion {env : Env} (he : env.Ok) {j : Json} {r : SBgpsec}
    (h : parseBgpsec env j true = .ok r) : r.IsAssertion := by
  obtain ⟨o, rfl⟩ := parseBgpsec_isObj h
  obtain ⟨m, h1, h2, h3, h4⟩ := parseBgpsec_sound h
  simp only [BgpsMembers.Valid, if_true] at h2
  refine ⟨by rw [stored_asn h4]; exact h2.1, by rw [stored_ski h1 h4]; exact h2.2.1, ?_, ?_⟩
  · cases hs : m.ski with
    | none => exact absurd hs h2.2.1
    | some d =>
      obtain ⟨z, hz⟩ := h4.ski d hs
      have hd : d.length = 20 := by
        have := h1.ski
        rw [hs] at this
        obtain ⟨s, -, -, h⟩ := this
        exact h
      rw [hz, List.length_append, hd]
      omega
  · cases hs : m.key with
    | none => exact absurd hs h2.2.2
    | some d => exact h4.spkLen he d hs

theorem forall2_right {α β} {R : α → β → Prop} {P : β → Prop} (h : ∀ a b, R a b → P b) {l : List α} {m : List β}
    (hf : List.Forall₂ R l m) : ∀ b ∈ m, P b := by
  induction hf with
  | nil => simp
  | cons hab _ ih =>
    intro b hb
    rcases List.mem_cons.1 hb with rfl | hb
    · exact h _ _ hab
    · exact ih b hb

theorem fileOf_wf {env : Env} (he : env.Ok) {root : List (String × Json)} {L : Lists} (h : FileOf env root L) : L.WF := by
  obtain ⟨o, ps, bs, -, -, -, -, h1, h2⟩ := h.filters
  obtain ⟨o', ps', bs', -, -, -, -, h3, h4⟩ := h.assertions
  exact ⟨forall2_right (fun _ _ h => parsePrefix_filter h) h1, forall2_right (fun _ _ h => parsePrefix_assertion h) h3,
    forall2_right (fun _ _ h => parseBgpsec_filter h) h2, forall2_right (fun _ _ h => parseBgpsec_assertion he h) h4⟩

/-! ### Conflicts -/

/-- Neither prefix contains the other, as the code tests it. -/
def ClashFree (c e : SPrefix) : Prop := prefixContained c e = .ok false ∧ prefixContained e c = .ok false

theorem prefixExistsIn_false {l : List SPrefix} {e : SPrefix} :
    prefixExistsIn l e = .ok false ↔ ∀ c ∈ l, ClashFree c e := by
  induction l with
  | nil => simp [prefixExistsIn]
  | cons c l ih =>
    rw [prefixExistsIn, bind_eq_ok]
    simp only [List.mem_cons, forall_eq_or_imp]
    constructor
    · rintro ⟨b1, h1, h⟩
      cases b1 with
      | true => simp at h
      | false =>
        simp only [Bool.false_eq_true, ite_false] at h
        obtain ⟨b2, h2, h⟩ := bind_eq_ok.1 h
        cases b2 with
        | true => simp at h
        | false => exact ⟨⟨h1, h2⟩, ih.1 (by simpa using h)⟩
    · rintro ⟨⟨h1, h2⟩, h3⟩
      refine ⟨false, h1, ?_⟩
      simp only [Bool.false_eq_true, ite_false]
      rw [h2, ok_bind]
      simpa using ih.2 h3

theorem prefixExists_false {db : Db} {e : SPrefix} :
    prefixExists db e = .ok false ↔ ∀ c ∈ db.lists.filterPfx ++ db.lists.assertPfx, ClashFree c e := by
  unfold prefixExists
  rw [bind_eq_ok]
  simp only [List.mem_append]
  constructor
  · rintro ⟨b, h1, h2⟩
    cases b with
    | true => simp at h2
    | false =>
      have h3 := prefixExistsIn_false.1 h1
      have h4 := prefixExistsIn_false.1 (by simpa using h2)
      rintro c (h | h)
      · exact h3 c h
      · exact h4 c h
  · intro h
    exact ⟨false, prefixExistsIn_false.2 (fun c hc => h c (Or.inl hc)), by
      simpa using prefixExistsIn_false.2 (fun c hc => h c (Or.inr hc))⟩

/-- Neither rule names the ASN of the other. -/
def ClashFreeB (c e : SBgpsec) : Prop := bgpsecContained c e = false ∧ bgpsecContained e c = false

theorem bgpsecExists_false {db : Db} {e : SBgpsec} :
    bgpsecExists db e = false ↔ ∀ c ∈ db.lists.filterBgps ++ db.lists.assertBgps, ClashFreeB c e := by
  unfold bgpsecExists ClashFreeB
  simp only [Bool.or_eq_false_iff, List.any_eq_false, List.mem_append, Bool.or_eq_true, not_or, Bool.not_eq_true]
  constructor
  · rintro ⟨h1, h2⟩ c (h | h)
    · exact h1 c h
    · exact h2 c h
  · intro h
    exact ⟨fun c hc => h c (Or.inl hc), fun c hc => h c (Or.inr hc)⟩

/-- No rule of the second list clashes with one of the first. -/
def NoClash (A L : Lists) : Prop :=
  (∀ c ∈ A.filterPfx ++ A.assertPfx, ∀ e ∈ L.filterPfx ++ L.assertPfx, ClashFree c e) ∧
  (∀ c ∈ A.filterBgps ++ A.assertBgps, ∀ e ∈ L.filterBgps ++ L.assertBgps, ClashFreeB c e)

theorem overlap_iff {p q : Pfx} (hp : p.Proper) (hq : q.Proper) : p.Overlap q ↔ p.Covers q ∨ q.Covers p := by
  rw [covers_iff hp.1 hq.2.1, covers_iff hq.1 hp.2.1]
  unfold Pfx.Overlap Pfx.Has
  constructor
  · rintro ⟨hf, n, ⟨h1, h2⟩, h3, h4⟩
    obtain ⟨pf, pa, pl⟩ := p
    obtain ⟨qf, qa, ql⟩ := q
    simp only at *
    subst hf
    have key : ∀ a l l' : Nat, l ≤ l' → n / 2 ^ (width pf - l') = a / 2 ^ (width pf - l') →
        a / 2 ^ (width pf - l) = n / 2 ^ (width pf - l) := by
      intro a l l' hl h
      obtain ⟨d, hd⟩ : ∃ d, width pf - l = (width pf - l') + d := ⟨width pf - l - (width pf - l'), by omega⟩
      rw [hd, pow_add, ← Nat.div_div_eq_div_mul, ← Nat.div_div_eq_div_mul, h]
    rcases Nat.le_total pl ql with h | h
    · exact Or.inl ⟨rfl, by rw [key qa pl ql h h4, h2], h⟩
    · exact Or.inr ⟨rfl, by rw [key pa ql pl h h2, h4], h⟩
  · rintro (⟨hf, h1, h2⟩ | ⟨hf, h1, h2⟩)
    · refine ⟨hf, q.addr, ⟨by rw [hf]; exact hq.2.1, h1⟩, hq.2.1, rfl⟩
    · refine ⟨hf.symm, p.addr, ⟨hp.2.1, rfl⟩, by rw [hf]; exact hp.2.1, h1⟩

theorem bit2_pos : ∀ x : BitVec 8, (x &&& fPrefix > 0) ↔ x.getLsbD 2 = true := by decide
theorem bit0_pos : ∀ x : BitVec 8, (x &&& fAsn > 0) ↔ x.getLsbD 0 = true := by decide

/-- What is needed of a stored rule: its prefix is proper. -/
def PfxOk (c : SPrefix) : Prop :=
  c.flag.getLsbD 2 = true → ∃ fam, c.fam = some fam ∧ Pfx.Proper ⟨fam, c.prefix_.toNat, c.len.toNat⟩

theorem IsFilter.ok {c : SPrefix} (h : c.IsFilter) : PfxOk c := by
  intro hb
  obtain ⟨fam, h1, -, h3⟩ := IsFilter.pfx h hb
  exact ⟨fam, h1, h3⟩

theorem IsAssertion.ok {c : SPrefix} (h : c.IsAssertion) : PfxOk c := by
  intro hb
  obtain ⟨p, hp, hpr, -⟩ := h.pfx
  cases hf : c.fam with
  | none => simp [SPrefix.pfx?, hb, hf] at hp
  | some fam =>
    simp only [SPrefix.pfx?, hb, hf, if_true, Option.map_some, Option.some.injEq] at hp
    exact ⟨fam, rfl, by rw [hp]; exact hpr⟩

theorem WF.ok {l : Lists} (h : l.WF) : ∀ c ∈ l.filterPfx ++ l.assertPfx, PfxOk c := by
  intro c hc
  rcases List.mem_append.1 hc with hc | hc
  · exact IsFilter.ok (h.filterPfx c hc)
  · exact IsAssertion.ok (h.assertPfx c hc)

theorem clashFree_iff {c e : SPrefix} (hc : PfxOk c) (he : PfxOk e) :
    ClashFree c e ↔ ∀ p q, c.pfx? = some p → e.pfx? = some q → ¬ p.Overlap q := by
  unfold ClashFree prefixContained
  by_cases h1 : c.flag.getLsbD 2 = true
  · by_cases h2 : e.flag.getLsbD 2 = true
    · obtain ⟨f1, g1, k1⟩ := hc h1
      obtain ⟨f2, g2, k2⟩ := he h2
      rw [if_pos ⟨(bit2_pos _).2 h1, (bit2_pos _).2 h2⟩, if_pos ⟨(bit2_pos _).2 h2, (bit2_pos _).2 h1⟩]
      obtain ⟨b1, e1, i1⟩ := vrpPrefixCov_eq c e f1 f2 g1 g2 k1 k2.2.1
      obtain ⟨b2, e2, i2⟩ := vrpPrefixCov_eq e c f2 f1 g2 g1 k2 k1.2.1
      rw [e1, e2]
      have p1 : c.pfx? = some ⟨f1, c.prefix_.toNat, c.len.toNat⟩ := by
        unfold SPrefix.pfx?; rw [if_pos h1, g1]; rfl
      have p2 : e.pfx? = some ⟨f2, e.prefix_.toNat, e.len.toNat⟩ := by
        unfold SPrefix.pfx?; rw [if_pos h2, g2]; rfl
      rw [p1, p2]
      simp only [Out.ok.injEq, Option.some.injEq]
      constructor
      · rintro ⟨rfl, rfl⟩ p q rfl rfl
        rw [overlap_iff k1 k2, ← i1, ← i2]
        simp
      · intro h
        have h := h _ _ rfl rfl
        rw [overlap_iff k1 k2, ← i1, ← i2] at h
        revert h
        cases b1 <;> cases b2 <;> simp
    · have p2 : e.pfx? = none := by unfold SPrefix.pfx?; rw [if_neg h2]
      rw [if_neg (by rintro ⟨-, h⟩; exact h2 ((bit2_pos _).1 h)), if_neg (by rintro ⟨h, -⟩; exact h2 ((bit2_pos _).1 h)), p2]
      simp
  · have p1 : c.pfx? = none := by unfold SPrefix.pfx?; rw [if_neg h1]
    rw [if_neg (by rintro ⟨h, -⟩; exact h1 ((bit2_pos _).1 h)), if_neg (by rintro ⟨-, h⟩; exact h1 ((bit2_pos _).1 h)), p1]
    simp

theorem clashFreeB_iff {c e : SBgpsec} : ClashFreeB c e ↔ ∀ x, ¬ (c.asn? = some x ∧ e.asn? = some x) := by
  unfold ClashFreeB bgpsecContained SBgpsec.asn?
  simp only [bit0_pos]
  by_cases h1 : c.flag.getLsbD 0 = true
  · by_cases h2 : e.flag.getLsbD 0 = true
    · simp only [h1, h2, decide_true, Bool.true_and, decide_eq_false_iff_not, if_true, Option.some.injEq, not_and]
      constructor
      · rintro ⟨h, -⟩ x rfl h'
        exact h h'.symm
      · intro h
        exact ⟨fun hh => h c.asn rfl hh.symm, fun hh => h c.asn rfl hh⟩
    · simp only [h1, h2]; simp
  · simp only [h1]; simp

theorem noClash_iff {A L : Lists} (hA : A.WF) (hL : L.WF) : NoClash A L ↔ NoConflict A L := by
  unfold NoClash NoConflict
  refine and_congr ?_ ?_
  · refine forall_congr' fun c => imp_congr_right fun hc => forall_congr' fun e => imp_congr_right fun he => ?_
    exact clashFree_iff (WF.ok hA c hc) (WF.ok hL e he)
  · refine forall_congr' fun c => imp_congr_right fun hc => forall_congr' fun e => imp_congr_right fun he => ?_
    exact clashFreeB_iff

/-! ### Loading -/

theorem prefixExists_lists {db db' : Db} (h : db.lists = db'.lists) (e : SPrefix) :
    prefixExists db e = prefixExists db' e := by
  unfold prefixExists; rw [h]

theorem addPrefix_ok {db : Db} {c : Lists} (hc : db.cache = some c) {ia : Bool} {r : SPrefix} {db' : Db} :
    (if ia then addPrefixAssertion db r else addPrefixFilter db r) = .ok db' ↔
      prefixExists db r = .ok false ∧ db' = ⟨db.lists, some (if ia then { c with assertPfx := c.assertPfx ++ [r] }
        else { c with filterPfx := c.filterPfx ++ [r] })⟩ := by
  have aux (f : Lists → Lists) : (do if ← prefixExists db r then .err true else db.addCache f) = .ok db' ↔
      prefixExists db r = .ok false ∧ db' = ⟨db.lists, some (f c)⟩ := by
    rw [bind_eq_ok]
    constructor
    · rintro ⟨b, h1, h2⟩
      cases b with
      | true => simp at h2
      | false =>
        simp only [Bool.false_eq_true, ite_false, Db.addCache, hc, Out.ok.injEq] at h2
        exact ⟨h1, h2.symm⟩
    · rintro ⟨h1, rfl⟩
      refine ⟨false, h1, ?_⟩
      simp [Db.addCache, hc]
  cases ia
  · simp only [Bool.false_eq_true, ite_false]
    exact aux _
  · simp only [if_true]
    exact aux _

theorem addBgpsec_ok {db : Db} {c : Lists} (hc : db.cache = some c) {ia : Bool} {r : SBgpsec} {db' : Db} :
    (if ia then addBgpsecAssertion db r else addBgpsecFilter db r) = .ok db' ↔
      bgpsecExists db r = false ∧ db' = ⟨db.lists, some (if ia then { c with assertBgps := c.assertBgps ++ [r] }
        else { c with filterBgps := c.filterBgps ++ [r] })⟩ := by
  unfold addBgpsecAssertion addBgpsecFilter Db.addCache
  rw [hc]
  cases hb : bgpsecExists db r <;> cases ia <;> simp [eq_comm]

theorem loadPrefixArray_ok {env : Env} {ia : Bool} : ∀ {js : List Json} {db : Db} {c : Lists} (_ : db.cache = some c)
    {db' : Db}, loadPrefixArray env ia js db = .ok db' ↔
      ∃ rs, List.Forall₂ (fun j r => parsePrefix env j ia = .ok r) js rs ∧
        (∀ r ∈ rs, prefixExists db r = .ok false) ∧
        db' = ⟨db.lists, some (if ia then { c with assertPfx := c.assertPfx ++ rs }
          else { c with filterPfx := c.filterPfx ++ rs })⟩ := by
  intro js
  induction js with
  | nil =>
    intro db c hc db'
    rw [loadPrefixArray]
    constructor
    · intro h
      refine ⟨[], .nil, by simp, ?_⟩
      obtain ⟨l, k⟩ := db
      simp only at hc
      subst hc
      simp only [Out.ok.injEq] at h
      cases ia <;> simp [← h]
    · rintro ⟨rs, h1, -, rfl⟩
      cases h1
      obtain ⟨l, k⟩ := db
      simp only at hc
      subst hc
      cases ia <;> simp
  | cons j js ih =>
    intro db c hc db'
    rw [loadPrefixArray, bind_eq_ok]
    unfold loadSinglePrefix
    constructor
    · rintro ⟨db1, h1, h2⟩
      obtain ⟨r, h3, h4⟩ := bind_eq_ok.1 h1
      obtain ⟨h5, rfl⟩ := (addPrefix_ok hc).1 h4
      obtain ⟨rs, k1, k2, rfl⟩ := (ih rfl).1 h2
      refine ⟨r :: rs, .cons h3 k1, ?_, ?_⟩
      · intro s hs
        rcases List.mem_cons.1 hs with rfl | hs
        · exact h5
        · rw [← k2 s hs]; exact prefixExists_lists rfl s
      · cases ia <;> simp
    · rintro ⟨rs, k1, k2, rfl⟩
      cases k1 with
      | @cons _ r _ rs h3 k1 =>
        refine ⟨⟨db.lists, some (if ia then { c with assertPfx := c.assertPfx ++ [r] }
          else { c with filterPfx := c.filterPfx ++ [r] })⟩, ?_, ?_⟩
        · rw [h3, ok_bind]
          exact (addPrefix_ok hc).2 ⟨k2 r (by simp), rfl⟩
        · refine (ih rfl).2 ⟨rs, k1, ?_, ?_⟩
          · intro s hs
            rw [← k2 s (by simp [hs])]; exact prefixExists_lists rfl s
          · cases ia <;> simp

theorem loadBgpsecArray_ok {env : Env} {ia : Bool} : ∀ {js : List Json} {db : Db} {c : Lists} (_ : db.cache = some c)
    {db' : Db}, loadBgpsecArray env ia js db = .ok db' ↔
      ∃ rs, List.Forall₂ (fun j r => parseBgpsec env j ia = .ok r) js rs ∧
        (∀ r ∈ rs, bgpsecExists db r = false) ∧
        db' = ⟨db.lists, some (if ia then { c with assertBgps := c.assertBgps ++ rs }
          else { c with filterBgps := c.filterBgps ++ rs })⟩ := by
  intro js
  induction js with
  | nil =>
    intro db c hc db'
    rw [loadBgpsecArray]
    constructor
    · intro h
      refine ⟨[], .nil, by simp, ?_⟩
      obtain ⟨l, k⟩ := db
      simp only at hc
      subst hc
      simp only [Out.ok.injEq] at h
      cases ia <;> simp [← h]
    · rintro ⟨rs, h1, -, rfl⟩
      cases h1
      obtain ⟨l, k⟩ := db
      simp only at hc
      subst hc
      cases ia <;> simp
  | cons j js ih =>
    intro db c hc db'
    rw [loadBgpsecArray, bind_eq_ok]
    unfold loadSingleBgpsec
    constructor
    · rintro ⟨db1, h1, h2⟩
      obtain ⟨r, h3, h4⟩ := bind_eq_ok.1 h1
      obtain ⟨h5, rfl⟩ := (addBgpsec_ok hc).1 h4
      obtain ⟨rs, k1, k2, rfl⟩ := (ih rfl).1 h2
      refine ⟨r :: rs, .cons h3 k1, ?_, ?_⟩
      · intro s hs
        rcases List.mem_cons.1 hs with rfl | hs
        · exact h5
        · exact k2 s hs
      · cases ia <;> simp
    · rintro ⟨rs, k1, k2, rfl⟩
      cases k1 with
      | @cons _ r _ rs h3 k1 =>
        refine ⟨⟨db.lists, some (if ia then { c with assertBgps := c.assertBgps ++ [r] }
          else { c with filterBgps := c.filterBgps ++ [r] })⟩, ?_, ?_⟩
        · rw [h3, ok_bind]
          exact (addBgpsec_ok hc).2 ⟨k2 r (by simp), rfl⟩
        · refine (ih rfl).2 ⟨rs, k1, ?_, ?_⟩
          · intro s hs
            exact k2 s (by simp [hs])
          · cases ia <;> simp

theorem required_ok {α} {o : Out (Option α)} {a : α} : required o = .ok a ↔ o = .ok (some a) := by
  unfold required
  rw [bind_eq_ok]
  constructor
  · rintro ⟨x, h1, h2⟩
    cases x with
    | none => simp at h2
    | some b => simp only [Out.ok.injEq] at h2; rw [h1, h2]
  · intro h
    exact ⟨some a, h, rfl⟩

theorem getArray_ok {o : List (String × Json)} {k : String} {l : List Json} :
    getArray o k = .ok (some l) ↔ o.lookup k = some (.arr l) := by
  unfold getArray
  cases h : o.lookup k with
  | none => simp
  | some j => cases j <;> simp

theorem getObject_ok {o : List (String × Json)} {k : String} {l : List (String × Json)} :
    getObject o k = .ok (some l) ↔ o.lookup k = some (.obj l) := by
  unfold getObject
  cases h : o.lookup k with
  | none => simp
  | some j => cases j <;> simp

theorem loadSection_ok {env : Env} {sec pn bn : String} {ia : Bool} {root : List (String × Json)} {db db' : Db} {c : Lists}
    (hc : db.cache = some c) : loadSection env sec pn bn ia root db = .ok db' ↔
      ∃ o ps bs rp rb, root.lookup sec = some (.obj o) ∧ o.length = 2 ∧ o.lookup pn = some (.arr ps) ∧
        o.lookup bn = some (.arr bs) ∧
        List.Forall₂ (fun j r => parsePrefix env j ia = .ok r) ps rp ∧
        List.Forall₂ (fun j r => parseBgpsec env j ia = .ok r) bs rb ∧
        (∀ r ∈ rp, prefixExists db r = .ok false) ∧ (∀ r ∈ rb, bgpsecExists db r = false) ∧
        db' = ⟨db.lists, some (if ia then { c with assertPfx := c.assertPfx ++ rp, assertBgps := c.assertBgps ++ rb }
          else { c with filterPfx := c.filterPfx ++ rp, filterBgps := c.filterBgps ++ rb })⟩ := by
  unfold loadSection
  constructor
  · intro h
    obtain ⟨o, h1, h⟩ := bind_eq_ok.1 h
    obtain ⟨ps, h2, h⟩ := bind_eq_ok.1 h
    obtain ⟨bs, h3, h⟩ := bind_eq_ok.1 h
    rw [required_ok, getObject_ok] at h1
    rw [required_ok, getArray_ok] at h2 h3
    by_cases hl : o.length = 2
    · simp only [validMembersCount, hl, decide_true, Bool.not_true, Bool.false_eq_true, ite_false] at h
      obtain ⟨db1, h4, h⟩ := bind_eq_ok.1 h
      obtain ⟨rp, k1, k2, rfl⟩ := (loadPrefixArray_ok hc).1 h4
      obtain ⟨rb, k3, k4, rfl⟩ := (loadBgpsecArray_ok rfl).1 h
      refine ⟨o, ps, bs, rp, rb, h1, hl, h2, h3, k1, k3, k2, fun r hr => k4 r hr, ?_⟩
      cases ia <;> simp
    · simp [validMembersCount, hl] at h
  · rintro ⟨o, ps, bs, rp, rb, h1, hl, h2, h3, k1, k3, k2, k4, rfl⟩
    rw [required_ok.2 (getObject_ok.2 h1), ok_bind, required_ok.2 (getArray_ok.2 h2), ok_bind,
      required_ok.2 (getArray_ok.2 h3), ok_bind]
    simp only [validMembersCount, hl, decide_true, Bool.not_true, Bool.false_eq_true, ite_false]
    rw [(loadPrefixArray_ok hc).2 ⟨rp, k1, k2, rfl⟩, ok_bind]
    refine (loadBgpsecArray_ok rfl).2 ⟨rb, k3, fun r hr => k4 r hr, ?_⟩
    cases ia <;> simp

theorem loadVersion_ok {root : List (String × Json)} :
    loadVersion root = .ok () ↔ root.lookup "slurmVersion" = some (.int 1) := by
  unfold loadVersion
  rw [bind_eq_ok]
  constructor
  · rintro ⟨v, h1, h2⟩
    rw [required_ok, getU32_ok] at h1
    by_cases hv : v = 1
    · subst hv; simpa using h1
    · exfalso
      rw [if_pos hv] at h2
      cases h2
  · intro h
    exact ⟨1, required_ok.2 (getU32_ok.2 (by simpa using h)), by simp⟩

theorem noClash_exists {A L : Lists} {k : Option Lists} : NoClash A L ↔
    (∀ r ∈ L.filterPfx, prefixExists ⟨A, k⟩ r = .ok false) ∧ (∀ r ∈ L.filterBgps, bgpsecExists ⟨A, k⟩ r = false) ∧
    (∀ r ∈ L.assertPfx, prefixExists ⟨A, k⟩ r = .ok false) ∧ (∀ r ∈ L.assertBgps, bgpsecExists ⟨A, k⟩ r = false) := by
  simp only [prefixExists_false, bgpsecExists_false]
  unfold NoClash
  constructor
  · rintro ⟨h1, h2⟩
    exact ⟨fun r hr c hc => h1 c hc r (by simp [hr]), fun r hr c hc => h2 c hc r (by simp [hr]),
      fun r hr c hc => h1 c hc r (by simp [hr]), fun r hr c hc => h2 c hc r (by simp [hr])⟩
  · rintro ⟨h1, h2, h3, h4⟩
    refine ⟨fun c hc e he => ?_, fun c hc e he => ?_⟩
    · rcases List.mem_append.1 he with he | he
      · exact h1 e he c hc
      · exact h3 e he c hc
    · rcases List.mem_append.1 he with he | he
      · exact h2 e he c hc
      · exact h4 e he c hc

theorem handleJson_ok {env : Env} {j : Json} {db db' : Db} : handleJson env j db = .ok db' ↔
    ∃ root L, j = .obj root ∧ FileOf env root L ∧ NoClash db.lists L ∧ db' = ⟨db.lists.append L, none⟩ := by
  constructor
  · intro h
    cases j with
    | obj root =>
      unfold handleJson at h
      simp only at h
      obtain ⟨u, h1, h⟩ := bind_eq_ok.1 h
      rw [loadVersion_ok] at h1
      obtain ⟨db1, h2, h⟩ := bind_eq_ok.1 h
      obtain ⟨db2, h3, h⟩ := bind_eq_ok.1 h
      obtain ⟨o, ps, bs, rp, rb, a1, a2, a3, a4, a5, a6, a7, a8, rfl⟩ := (loadSection_ok (c := Lists.empty) rfl).1 h2
      obtain ⟨o', ps', bs', rp', rb', b1, b2, b3, b4, b5, b6, b7, b8, rfl⟩ := (loadSection_ok rfl).1 h3
      by_cases hl : root.length = 3
      · simp only [validMembersCount, hl, decide_true, Bool.not_true, Bool.false_eq_true, ite_false, Db.flushCache,
          Out.ok.injEq] at h
        refine ⟨root, ⟨rp, rp', rb, rb'⟩, rfl, ⟨h1, ⟨o, ps, bs, a1, a2, a3, a4, a5, a6⟩, ⟨o', ps', bs', b1, b2, b3, b4, b5, b6⟩,
          hl⟩, ?_, ?_⟩
        · refine (noClash_exists (k := none)).2 ⟨?_, ?_, ?_, ?_⟩
          · intro r hr; rw [← a7 r hr]; exact prefixExists_lists rfl r
          · intro r hr; exact a8 r hr
          · intro r hr; rw [← b7 r hr]; exact prefixExists_lists rfl r
          · intro r hr; exact b8 r hr
        · rw [← h]
          simp [Lists.append, Lists.empty, Db.startCache]
      · simp [validMembersCount, hl] at h
    | _ => simp [handleJson] at h
  · rintro ⟨root, L, rfl, hf, hn, rfl⟩
    obtain ⟨o, ps, bs, a1, a2, a3, a4, a5, a6⟩ := hf.filters
    obtain ⟨o', ps', bs', b1, b2, b3, b4, b5, b6⟩ := hf.assertions
    unfold handleJson
    simp only
    rw [loadVersion_ok.2 hf.version, ok_bind]
    obtain ⟨n1, n2, n3, n4⟩ := (noClash_exists (k := some Lists.empty)).1 hn
    rw [(loadSection_ok (db := db.startCache) (c := Lists.empty) rfl).2 ⟨o, ps, bs, L.filterPfx, L.filterBgps, a1, a2, a3, a4, a5, a6,
      n1, n2, rfl⟩, ok_bind]
    simp only [Bool.false_eq_true, ite_false]
    rw [(loadSection_ok (db := ⟨db.startCache.lists, some ⟨Lists.empty.filterPfx ++ L.filterPfx, Lists.empty.assertPfx,
        Lists.empty.filterBgps ++ L.filterBgps, Lists.empty.assertBgps⟩⟩) (c := ⟨Lists.empty.filterPfx ++ L.filterPfx, Lists.empty.assertPfx,
        Lists.empty.filterBgps ++ L.filterBgps, Lists.empty.assertBgps⟩) rfl).2 ⟨o', ps', bs', L.assertPfx, L.assertBgps, b1, b2, b3, b4, b5, b6,
      (fun r hr => (prefixExists_lists rfl r).trans (n3 r hr)), (fun r hr => n4 r hr), rfl⟩, ok_bind]
    simp [validMembersCount, hf.size, Db.flushCache, Lists.append, Lists.empty, Db.startCache]

theorem slurmParse_ok {env : Env} {f : Option Json} {db db' : Db} : slurmParse env f db = .ok db' ↔
    ∃ L, DocOf env f L ∧ NoClash db.lists L ∧ db' = ⟨db.lists.append L, none⟩ := by
  unfold slurmParse DocOf
  cases f with
  | none => simp
  | some j =>
    simp only [handleJson_ok, Option.some.injEq]
    constructor
    · rintro ⟨root, L, h1, h2, h3⟩
      exact ⟨L, ⟨root, h1, h2⟩, h3⟩
    · rintro ⟨L, ⟨root, h1, h2⟩, h3⟩
      exact ⟨root, L, h1, h2, h3⟩

theorem append_assoc (a b c : Lists) : (a.append b).append c = a.append (b.append c) := by
  simp [Lists.append]

theorem append_empty (a : Lists) : a.append Lists.empty = a := by simp [Lists.append, Lists.empty]
theorem empty_append (a : Lists) : Lists.empty.append a = a := by simp [Lists.append, Lists.empty]

theorem noClash_append {A B L : Lists} : NoClash (A.append B) L ↔ NoClash A L ∧ NoClash B L := by
  unfold NoClash Lists.append
  constructor
  · rintro ⟨h1, h2⟩
    refine ⟨⟨fun c hc e he => h1 c ?_ e he, fun c hc e he => h2 c ?_ e he⟩, fun c hc e he => h1 c ?_ e he, fun c hc e he => h2 c ?_ e he⟩ <;>
      · simp only [List.mem_append] at hc ⊢; tauto
  · rintro ⟨⟨h1, h2⟩, h3, h4⟩
    refine ⟨fun c hc e he => ?_, fun c hc e he => ?_⟩
    · simp only [List.mem_append] at hc
      have : c ∈ A.filterPfx ++ A.assertPfx ∨ c ∈ B.filterPfx ++ B.assertPfx := by
        simp only [List.mem_append]; tauto
      exact this.elim (fun h => h1 c h e he) (fun h => h3 c h e he)
    · simp only [List.mem_append] at hc
      have : c ∈ A.filterBgps ++ A.assertBgps ∨ c ∈ B.filterBgps ++ B.assertBgps := by
        simp only [List.mem_append]; tauto
      exact this.elim (fun h => h2 c h e he) (fun h => h4 c h e he)

theorem noClash_empty (L : Lists) : NoClash Lists.empty L := by
  simp [NoClash, Lists.empty]

theorem parseFiles_ok {env : Env} : ∀ {fs : List (Option Json)} {A : Lists} {db' : Db},
    parseFiles env fs ⟨A, none⟩ = .ok db' ↔
      ∃ Ls, List.Forall₂ (DocOf env) fs Ls ∧ (∀ L ∈ Ls, NoClash A L) ∧ Ls.Pairwise NoClash ∧
        db' = ⟨A.append (Lists.concat Ls), none⟩ := by
  intro fs
  induction fs with
  | nil =>
    intro A db'
    rw [parseFiles]
    constructor
    · intro h
      simp only [Out.ok.injEq] at h
      exact ⟨[], .nil, by simp, .nil, by rw [← h]; simp [Lists.concat, append_empty]⟩
    · rintro ⟨Ls, h1, -, -, rfl⟩
      cases h1
      simp [Lists.concat, append_empty]
  | cons f fs ih =>
    intro A db'
    rw [parseFiles, bind_eq_ok]
    constructor
    · rintro ⟨db1, h1, h2⟩
      obtain ⟨L, k1, k2, rfl⟩ := slurmParse_ok.1 h1
      obtain ⟨Ls, g1, g2, g3, rfl⟩ := ih.1 h2
      refine ⟨L :: Ls, .cons k1 g1, ?_, .cons (fun M hM => (noClash_append.1 (g2 M hM)).2) g3, ?_⟩
      · intro M hM
        rcases List.mem_cons.1 hM with rfl | hM
        · exact k2
        · exact (noClash_append.1 (g2 M hM)).1
      · simp [append_assoc, Lists.concat]
    · rintro ⟨Ls, h1, h2, h3, rfl⟩
      cases h1 with
      | @cons _ L _ Ls k1 g1 =>
        rw [List.pairwise_cons] at h3
        refine ⟨_, slurmParse_ok.2 ⟨L, k1, h2 L (by simp), rfl⟩, ?_⟩
        refine ih.2 ⟨Ls, g1, fun M hM => noClash_append.2 ⟨h2 M (by simp [hM]), h3.1 M hM⟩, h3.2, ?_⟩
        simp [append_assoc, Lists.concat]

theorem hasData_iff (l : Lists) : l.hasData = false ↔ l = Lists.empty := by
  obtain ⟨a, b, c, d⟩ := l
  simp [Lists.hasData, Lists.empty]
  tauto

end Verif.Slurm
