import Verif.Slurm.LoadLemmas
/-
C36: the members of SLURM files are checked.
-/
namespace Verif.Slurm
open Verif.Res
open Verif.Rtr (Fam)

theorem pfx_count {env : Env} {o : List (String × Json)} {m : PfxMembers} (h : m.Of env o) :
    m.count = ((["asn", "prefix", "maxPrefixLength", "comment"] : List String).filter
      (fun k => (o.lookup k).isSome)).length := by
  obtain ⟨h1, h2, h3, h4⟩ := h
  obtain ⟨asn, pfx, max, c⟩ := m
  have e1 : (o.lookup "asn").isSome = asn.isSome := by cases asn <;> (simp only at h1; rw [h1]; rfl)
  have e2 : (o.lookup "prefix").isSome = pfx.isSome := by
    cases pfx
    · simp only at h2; rw [h2]; rfl
    · obtain ⟨s, hs, -⟩ := h2; simp [hs]
  have e3 : (o.lookup "maxPrefixLength").isSome = max.isSome := by cases max <;> (simp only at h3; rw [h3]; rfl)
  have e4 : (o.lookup "comment").isSome = c := by
    cases c
    · simp only [Bool.false_eq_true, ite_false] at h4; rw [h4]; rfl
    · obtain ⟨s, hs⟩ := h4; simp [hs]
  simp only [PfxMembers.count, List.filter_cons, e1, e2, e3, e4]
  cases asn <;> cases pfx <;> cases max <;> cases c <;> rfl

theorem bgps_count {env : Env} {o : List (String × Json)} {m : BgpsMembers} (h : m.Of env o) :
    m.count = ((["asn", "SKI", "routerPublicKey", "comment"] : List String).filter
      (fun k => (o.lookup k).isSome)).length := by
  obtain ⟨h1, h2, h3, h4⟩ := h
  obtain ⟨asn, ski, key, c⟩ := m
  have e1 : (o.lookup "asn").isSome = asn.isSome := by cases asn <;> (simp only at h1; rw [h1]; rfl)
  have e2 : (o.lookup "SKI").isSome = ski.isSome := by
    cases ski
    · simp only at h2; rw [h2]; rfl
    · obtain ⟨s, hs, -⟩ := h2; simp [hs]
  have e3 : (o.lookup "routerPublicKey").isSome = key.isSome := by
    cases key
    · simp only at h3; rw [h3]; rfl
    · obtain ⟨s, hs, -⟩ := h3; simp [hs]
  have e4 : (o.lookup "comment").isSome = c := by
    cases c
    · simp only [Bool.false_eq_true, ite_false] at h4; rw [h4]; rfl
    · obtain ⟨s, hs⟩ := h4; simp [hs]
  simp only [BgpsMembers.count, List.filter_cons, e1, e2, e3, e4]
  cases asn <;> cases ski <;> cases key <;> cases c <;> rfl

/-- **C36, prefix rules.** A JSON object is accepted as a prefix filter or assertion exactly when its members have the
types and the ranges RFC 8416 gives (the AS number fits 32 bits, the prefix is one with no bits after its length, the
maximum length is between the prefix length and the width of the family, the required members are there) and it has no
other member.
Missing from the full property: the text of a prefix is only checked as far as `PrefixText` says, and a text with no
field crashes the program (see `C36_refuted`). -/
theorem C36_prefix_rule_partial (env : Env) (o : List (String × Json)) (ho : Distinct o) (isAssertion : Bool) :
    (∃ r, parsePrefix env (.obj o) isAssertion = .ok r) ↔
      (∃ m : PfxMembers, m.Of env o ∧ m.Valid isAssertion) ∧
        ∀ k ∈ o.map Prod.fst, k ∈ ["asn", "prefix", "maxPrefixLength", "comment"] := by
  constructor
  · rintro ⟨r, h⟩
    obtain ⟨m, h1, h2, h3, -⟩ := parsePrefix_ok.1 h
    exact ⟨⟨m, h1, h2⟩, (count_known ho (by decide) (pfx_count h1)).1 h3⟩
  · rintro ⟨⟨m, h1, h2⟩, h3⟩
    exact ⟨m.rule, parsePrefix_ok.2 ⟨m, h1, h2, (count_known ho (by decide) (pfx_count h1)).2 h3, rfl⟩⟩

/-- **C36, prefix rules.** What is stored of an accepted rule are the values of its members. -/
theorem C36_prefix_stored_partial (env : Env) (o : List (String × Json)) (isAssertion : Bool) (r : SPrefix)
    (h : parsePrefix env (.obj o) isAssertion = .ok r) :
    ∃ m : PfxMembers, m.Of env o ∧ m.Valid isAssertion ∧ r.asn? = m.asn ∧ r.pfx? = m.pfx ∧ r.maxLen? = m.max := by
  obtain ⟨m, h1, h2, -, rfl⟩ := parsePrefix_ok.1 h
  exact ⟨m, h1, h2, rule_asn m, rule_pfx m (of_proper h1), rule_max m (max_lt h2)⟩

/-- **C36, BGPsec rules.** A JSON object is accepted as a BGPsec filter or assertion exactly when its members are as RFC
8416 says (a 32-bit AS number, a 20-byte key identifier in base64url, a router key libcrypto accepts) and it has no other
member. It never crashes. -/
theorem C36_bgpsec_rule_partial (env : Env) (o : List (String × Json)) (ho : Distinct o) (isAssertion : Bool) :
    ((∃ r, parseBgpsec env (.obj o) isAssertion = .ok r) ↔
      (∃ m : BgpsMembers, m.Of env o ∧ m.Valid isAssertion) ∧
        ∀ k ∈ o.map Prod.fst, k ∈ ["asn", "SKI", "routerPublicKey", "comment"]) ∧
    parseBgpsec env (.obj o) isAssertion ≠ .crash := by
  refine ⟨⟨?_, ?_⟩, parseBgpsec_crash⟩
  · rintro ⟨r, h⟩
    obtain ⟨m, h1, h2, h3, -⟩ := parseBgpsec_sound h
    exact ⟨⟨m, h1, h2⟩, (count_known ho (by decide) (bgps_count h1)).1 h3⟩
  · rintro ⟨⟨m, h1, h2⟩, h3⟩
    exact parseBgpsec_complete h1 h2 ((count_known ho (by decide) (bgps_count h1)).2 h3)

/-- **C36, BGPsec rules.** What is stored of an accepted rule are the values of its members. -/
theorem C36_bgpsec_stored_partial (env : Env) (o : List (String × Json)) (isAssertion : Bool) (r : SBgpsec)
    (h : parseBgpsec env (.obj o) isAssertion = .ok r) :
    ∃ m : BgpsMembers, m.Of env o ∧ m.Valid isAssertion ∧ r.asn? = m.asn ∧ r.ski? = m.ski ∧
      ∀ d, m.key = some d → ∃ z, r.spk = d ++ List.replicate z 0 := by
  obtain ⟨m, h1, h2, -, h4⟩ := parseBgpsec_sound h
  exact ⟨m, h1, h2, stored_asn h4, stored_ski h1 h4, h4.key⟩

/-- **C36, crashes.** The only JSON object that crashes the rule parsers is a prefix rule whose "prefix" has nothing but
slashes (and whose "asn", if any, is good: it is read first). -/
theorem C36_crash_partial (env : Env) (o : List (String × Json)) (isAssertion : Bool) :
    parsePrefix env (.obj o) isAssertion = .crash ↔
      (∃ s, o.lookup "prefix" = some (.str s) ∧ ∀ b ∈ s, b = 0x2F) ∧
      (isAssertion = false ∧ o.lookup "asn" = none ∨ ∃ a : BitVec 32, o.lookup "asn" = some (.int a.toNat)) :=
  parsePrefix_crash

/-- An environment for examples: one IPv4 address is known, and nothing else. -/
def env0 : Env where
  pton4 s := if s = [0x31, 0x2E, 0x30, 0x2E, 0x30, 0x2E, 0x30] then some 0x01000000 else none
  pton6 _ := none
  b64 _ := none
  spkiOk _ := false

/-- A SLURM file with these prefix filters and nothing else. -/
def docWith (filters : List Json) : Json :=
  .obj [("slurmVersion", .int 1),
    ("validationOutputFilters", .obj [("prefixFilters", .arr filters), ("bgpsecFilters", .arr [])]),
    ("locallyAddedAssertions", .obj [("prefixAssertions", .arr []), ("bgpsecAssertions", .arr [])])]

/-- **C36 is false of the code.** A SLURM file with the filter `{"prefix": ""}` (or `{"prefix": "/"}`) makes the program
pass a null pointer to `strchr`; and `"1.0.0.0/8x"`, `"//1.0.0.0/8"` and `"1.0.0.0/8/9"` are accepted as 1.0.0.0/8. -/
theorem C36_refuted (env : Env) :
    handleJson env (docWith [.obj [("prefix", .str [])]]) ⟨Lists.empty, none⟩ = .crash ∧
    handleJson env (docWith [.obj [("prefix", .str [0x2F])]]) ⟨Lists.empty, none⟩ = .crash ∧
    (∀ junk ∈ ([[0x31, 0x2E, 0x30, 0x2E, 0x30, 0x2E, 0x30, 0x2F, 0x38, 0x78],
        [0x2F, 0x2F, 0x31, 0x2E, 0x30, 0x2E, 0x30, 0x2E, 0x30, 0x2F, 0x38],
        [0x31, 0x2E, 0x30, 0x2E, 0x30, 0x2E, 0x30, 0x2F, 0x38, 0x2F, 0x39]] : List (List Byte)),
      ∃ r, parsePrefix env0 (.obj [("prefix", .str junk)]) false = .ok r ∧ r.pfx? = some ⟨.v4, 0x01000000, 8⟩) := by
  refine ⟨rfl, rfl, ?_⟩
  intro junk hj
  simp only [List.mem_cons, List.not_mem_nil, or_false] at hj
  rcases hj with rfl | rfl | rfl <;> exact ⟨⟨4, 0, some .v4, 0x01000000, 8, 0⟩, by decide, by decide⟩

/-- Both sides of `C36_prefix_rule_partial` hold for `{"prefix": "1.0.0.0/8", "asn": 5}`. -/
example : ∃ r, parsePrefix env0 (.obj [("prefix", .str [0x31, 0x2E, 0x30, 0x2E, 0x30, 0x2E, 0x30, 0x2F, 0x38]),
    ("asn", .int 5)]) true = .ok r := ⟨⟨5, 5, some .v4, 0x01000000, 8, 0⟩, by decide⟩
example : Distinct [("prefix", .str [0x31]), ("asn", .int 5)] := by unfold Distinct; decide
/-- An unknown member, an ASN of 33 bits, a bit after the length and a maximum length in a filter are rejected. -/
example : parsePrefix env0 (.obj [("asn", .int 5), ("extra", .null)]) false = .err false := by decide
example : parsePrefix env0 (.obj [("asn", .int 4294967296)]) false = .err false := by decide
example : parsePrefix env0 (.obj [("prefix", .str [0x31, 0x2E, 0x30, 0x2E, 0x30, 0x2E, 0x30, 0x2F, 0x37])]) false =
    .err false := by decide
example : parsePrefix env0 (.obj [("asn", .int 5), ("maxPrefixLength", .int 9)]) false = .err false := by decide
/-- A BGPsec filter. -/
example : ∃ r, parseBgpsec env0 (.obj [("asn", .int 5), ("comment", .str [])]) false = .ok r := ⟨⟨3, 5, [], []⟩, by decide⟩

end Verif.Slurm
