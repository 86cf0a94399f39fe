import Verif.Res.ResProps
/-
C26: exact effect of a list of resources under both policies. C27: AS numbers.
-/
namespace Verif.Res

/-! ### C27 -/

theorem fold_ulong (l : List Byte) (v : Nat) :
    l.foldl (fun v x => (v * 256 + x.toNat) % 2 ^ 64) v % 2 ^ 64 = (v * 256 ^ l.length + be l) % 2 ^ 64 := by
  induction l generalizing v with
  | nil => simp [be]
  | cons b l ih =>
    rw [List.foldl_cons, ih, List.length_cons, be]
    rw [Nat.add_mod, Nat.mul_mod, Nat.mod_mod, ← Nat.mul_mod, ← Nat.add_mod]
    congr 1
    rw [Nat.add_mul, Nat.mul_assoc, Nat.mul_comm 256, Nat.add_assoc, Nat.pow_succ]

theorem be_eq_zero (l : List Byte) : be l = 0 ↔ l.any (· ≠ 0) = false := by
  induction l with
  | nil => simp [be]
  | cons b l ih =>
    rw [be, Nat.add_eq_zero_iff, ih, List.any_cons, Bool.or_eq_false_iff, Nat.mul_eq_zero]
    have : 256 ^ l.length ≠ 0 := Nat.ne_of_gt (Nat.pow_pos (by decide))
    simp only [this, or_false, ne_eq, decide_not, Bool.not_eq_false', decide_eq_true_eq]
    refine and_congr ⟨fun h => BitVec.eq_of_toNat_eq (by simpa using h), fun h => by simp [h]⟩ Iff.rfl

/-- The conversion reads the encoding as an unsigned number. -/
theorem integer2ulong_iff (b : List Byte) (n : Nat) : integer2ulong b = some n ↔ n = be b ∧ be b < 2 ^ 64 := by
  have hb : be b = be (b.take (b.length - 8)) * 256 ^ (b.drop (b.length - 8)).length + be (b.drop (b.length - 8)) := by
    rw [← be_append, List.take_append_drop]
  have hlt := be_lt (b.drop (b.length - 8))
  have hlen : (b.drop (b.length - 8)).length ≤ 8 := by rw [List.length_drop]; omega
  have hlt' : be (b.drop (b.length - 8)) < 2 ^ 64 := by
    refine Nat.lt_of_lt_of_le hlt ?_
    calc _ ≤ 256 ^ 8 := Nat.pow_le_pow_right (by decide) hlen
      _ = 2 ^ 64 := by decide
  unfold integer2ulong
  split
  · rename_i hany
    simp only [reduceCtorEq, false_iff, not_and]
    intro _ hbig
    have hne : be (b.take (b.length - 8)) ≠ 0 := by
      intro h0; rw [be_eq_zero] at h0; rw [h0] at hany; cases hany
    have hl8 : (b.drop (b.length - 8)).length = 8 := by
      rw [List.length_drop]
      have : b.length - 8 ≠ 0 := by
        intro h0; rw [h0, List.take_zero] at hne; exact hne rfl
      omega
    rw [hl8] at hb
    have : 1 * 256 ^ 8 ≤ be (b.take (b.length - 8)) * 256 ^ 8 := Nat.mul_le_mul_right _ (by omega)
    have h64 : (2 : Nat) ^ 64 = 256 ^ 8 := by decide
    omega
  · rename_i hany
    have h0 : be (b.take (b.length - 8)) = 0 := by rw [be_eq_zero]; simpa using hany
    rw [h0, Nat.zero_mul, Nat.zero_add] at hb
    have hf := fold_ulong (b.drop (b.length - 8)) 0
    rw [Nat.zero_mul, Nat.zero_add, Nat.mod_eq_of_lt hlt'] at hf
    have hfl : ∀ (l : List Byte) (v : Nat), v < 2 ^ 64 →
        l.foldl (fun v (x : Byte) => (v * 256 + x.toNat) % 2 ^ 64) v < 2 ^ 64 := by
      intro l
      induction l with
      | nil => intro v hv; exact hv
      | cons b l ih => intro v hv; rw [List.foldl_cons]; exact ih _ (Nat.mod_lt _ (by decide))
    rw [Nat.mod_eq_of_lt (hfl _ 0 (by decide))] at hf
    rw [hf, ← hb]
    constructor
    · intro h; cases h; exact ⟨rfl, by rw [hb]; exact hlt'⟩
    · rintro ⟨rfl, _⟩; rfl

theorem asId2u32_iff (b : List Byte) (n : BitVec 32) : asId2u32 b = some n ↔ n.toNat = be b := by
  have hn := n.isLt
  unfold asId2u32
  cases h : integer2ulong b with
  | none =>
    simp only [reduceCtorEq, false_iff]
    intro he
    have := (integer2ulong_iff b (be b)).2 ⟨rfl, by omega⟩
    rw [h] at this; cases this
  | some k =>
    obtain ⟨rfl, hk⟩ := (integer2ulong_iff b k).1 h
    simp only
    split
    · simp only [reduceCtorEq, false_iff]; omega
    · rename_i hle
      simp only [Option.some.injEq]
      constructor
      · rintro rfl; simp [BitVec.toNat_ofNat]; omega
      · intro he; rw [← he]; simp

theorem intVal_nonneg {b : List Byte} (h : 0 ≤ intVal b) : intVal b = be b := by
  unfold intVal at h ⊢
  split
  · rfl
  · rename_i x t
    split
    · rfl
    · rename_i hx
      simp only [hx, if_false] at h
      have := be_lt (x :: t)
      have h2 : ((256 : Int) ^ (x :: t).length) = ((256 ^ (x :: t).length : Nat) : Int) := (Int.natCast_pow 256 _).symm
      rw [h2] at h
      omega

/-- C27 (part: INTEGERs that are not negative). A single AS number is accepted exactly when its value fits 32 bits, and
it is stored as this value; a range exactly when moreover it is not inverted. -/
theorem C27_asn_partial (a b : List Byte) (ha : 0 ≤ intVal a) (hb : 0 ≤ intVal b) (m M : BitVec 32) :
    (decodeAs (.id a) = some ⟨m, M⟩ ↔ intVal a = m.toNat ∧ M = m) ∧
    (decodeAs (.range a b) = some ⟨m, M⟩ ↔ intVal a = m.toNat ∧ intVal b = M.toNat ∧ m.toNat ≤ M.toNat) := by
  rw [intVal_nonneg ha, intVal_nonneg hb]
  constructor
  · simp only [decodeAs, Option.map_eq_some_iff, R32.mk.injEq, asId2u32_iff]
    constructor
    · rintro ⟨x, h, rfl, rfl⟩; exact ⟨by omega, rfl⟩
    · rintro ⟨h, rfl⟩; exact ⟨M, by omega, rfl, rfl⟩
  · constructor
    · intro h
      simp only [decodeAs] at h
      split at h
      · cases h
      · rename_i x hx
        split at h
        · cases h
        · rename_i y hy
          split at h
          · cases h
          · rename_i hle
            cases h
            rw [asId2u32_iff] at hx hy
            refine ⟨by omega, by omega, ?_⟩
            simpa [BitVec.lt_def] using hle
    · rintro ⟨h1, h2, h3⟩
      have hx := (asId2u32_iff a m).2 (by omega)
      have hy := (asId2u32_iff b M).2 (by omega)
      have : ¬ m > M := by simpa [BitVec.lt_def] using h3
      simp [decodeAs, hx, hy, this]

/-- In every case: what is stored is not inverted. -/
theorem C27_ordered (e : AsIdOrRange) (x : R32) (h : decodeAs e = some x) : x.min.toNat ≤ x.max.toNat :=
  (decodeAs_good e x h).2

/-- C27 is false for negative numbers: -1 is accepted, as AS 255. -/
theorem C27_refuted : ∃ b, intVal b < 0 ∧ decodeAs (.id b) = some ⟨255, 255⟩ := ⟨[0xFF], by decide, by decide⟩

example : decodeAs (.range [0] [0x00, 0xFF, 0xFF, 0xFF, 0xFF]) = some ⟨0, 0xFFFFFFFF⟩ ∧
    decodeAs (.id [0x01, 0x00, 0x00, 0x00, 0x00]) = none ∧ decodeAs (.range [2] [1]) = none := by decide

/-! ### C26 -/

/-- What has to come out of a list of resources, of which `decoded` are the decoded elements (`none`: does not decode),
when the issuer has the numbers `issuer`. -/
def TrimSpec {α} (val : α → Rng) (issuer : Nat → Prop) (policy : Policy) (decoded : List (Option α)) (o : Out)
    (result : Nat → Prop) : Prop :=
  /- An RFC 6484 certificate is valid exactly when all elements decode, the issuer has all of them, and they are in
  order and not adjacent. -/
  (policy = .rfc6484 → (o = .ok ↔ ∃ xs : List α, decoded = xs.map some ∧ (∀ x ∈ xs, ∀ n, (val x).Has n → issuer n) ∧
    Canonical (xs.map val))) ∧
  /- An RFC 8360 certificate is valid exactly when all elements decode and those that the issuer has are in order and not
  adjacent. -/
  (policy = .rfc8360 → (o = .ok ↔ ∃ xs : List α, decoded = xs.map some ∧ ∃ kept : List α, List.Sublist kept xs ∧
    (open Classical in kept = xs.filter (fun x => decide (∀ n, (val x).Has n → issuer n))) ∧ Canonical (kept.map val))) ∧
  /- The resources of a valid certificate are those of the elements that the issuer has entirely. -/
  (o = .ok → ∀ xs : List α, decoded = xs.map some →
    ∀ n, result n ↔ ∃ x ∈ xs, (∀ m, (val x).Has m → issuer m) ∧ (val x).Has n)

theorem trim_generic {α β} {ok : α → Prop} {cmp : α → α → Cmp} {val : α → Rng} (law : CmpLaw ok cmp val)
    {decode : β → Option α} (hdec : ∀ e x, decode e = some x → ok x ∧ (val x).min ≤ (val x).max)
    {h : Sets α} (hg : GoodH ok val h) {p : Option Nat} (hv : ValidP h p) (hp : p ≠ none) (policy : Policy)
    (es : List β) (hes : es ≠ []) :
    TrimSpec val (numsOf val h p) policy (es.map decode) (addList cmp decode (some p) policy false es h none).2.2
      (numsOf val (addList cmp decode (some p) policy false es h none).1
        (addList cmp decode (some p) policy false es h none).2.1) := by
  have hinv : KInv ok val h (some p) h none := ⟨List.prefix_refl _, hg, .inl rfl⟩
  obtain ⟨h', own', o, h1, h2, h3, h4, h5, h6⟩ := addLoop_spec law hdec (h0 := h) (P := some p)
    (by intro q hq; cases hq; exact hv) policy es hinv (by simpa using hp) (by simp [curr, Sets.deref])
  have hl : es.length ≠ 0 := by simpa using hes
  have e : addList cmp decode (some p) policy false es h none = (h', own', o) := by
    unfold addList; simp [hl, h1]
  rw [e]
  have hperm : ∀ x, Permits val h (some p) x ↔ ∀ n, (val x).Has n → numsOf val h p n := by
    intro x; simp [Permits]
  simp only [curr, Sets.deref, Option.getD_none, List.nil_append] at h5 h6
  refine ⟨?_, ?_, ?_⟩
  · rintro rfl
    rw [h5]
    constructor
    · rintro ⟨xs, a1, a2, a3⟩
      refine ⟨xs, a1, fun x hx => (hperm x).1 (a2 rfl x hx), ?_⟩
      have : keep val h (some p) xs = xs := by
        unfold keep; rw [List.filter_eq_self]; intro x hx; simpa using a2 rfl x hx
      rwa [this] at a3
    · rintro ⟨xs, a1, a2, a3⟩
      refine ⟨xs, a1, fun _ x hx => (hperm x).2 (a2 x hx), ?_⟩
      have : keep val h (some p) xs = xs := by
        unfold keep; rw [List.filter_eq_self]; intro x hx; simpa using (hperm x).2 (a2 x hx)
      rwa [this]
  · rintro rfl
    rw [h5]
    have hk : ∀ xs, keep val h (some p) xs =
        (open Classical in xs.filter (fun x => decide (∀ n, (val x).Has n → numsOf val h p n))) := by
      intro xs; unfold keep
      refine List.filter_congr (fun x _ => ?_)
      exact decide_eq_decide.2 (hperm x)
    constructor
    · rintro ⟨xs, a1, _, a3⟩
      exact ⟨xs, a1, keep val h (some p) xs, List.filter_sublist, hk xs, a3⟩
    · rintro ⟨xs, a1, kept, _, a3, a4⟩
      exact ⟨xs, a1, by simp, by rw [hk, ← a3]; exact a4⟩
  · intro ho xs hxs n
    obtain ⟨b1, b2⟩ := h6 ho xs hxs
    have hnum : numsOf val h' own' n ↔ Covered ((keep val h (some p) xs).map val) n := by
      rw [← b1]
      unfold numsOf
      constructor
      · rintro ⟨l, hl, hc⟩
        have : Sets.deref h' own' = some l := hl
        cases own' with
        | none => cases this
        | some i =>
          change h'[i]? = some l at this
          change Covered ((h'[i]?.getD []).map val) n
          rw [this]; exact hc
      · intro hc
        cases own' with
        | none => obtain ⟨r, hr, _⟩ := hc; simp at hr
        | some i =>
          change Covered ((h'[i]?.getD []).map val) n at hc
          change ∃ l, h'[i]? = some l ∧ _
          cases hd : h'[i]? with
          | none => rw [hd] at hc; obtain ⟨r, hr, _⟩ := hc; simp at hr
          | some l => rw [hd] at hc; exact ⟨l, rfl, hc⟩
    rw [hnum]
    constructor
    · rintro ⟨r, hr, hn⟩
      obtain ⟨x, hx, rfl⟩ := List.mem_map.1 hr
      obtain ⟨hx1, hx2⟩ := List.mem_filter.1 hx
      exact ⟨x, hx1, (hperm x).1 (by simpa using hx2), hn⟩
    · rintro ⟨x, hx, hp, hn⟩
      exact ⟨val x, List.mem_map_of_mem (List.mem_filter.2 ⟨hx, by simpa using (hperm x).2 hp⟩), hn⟩

/-- C26 (IPv4; part: the issuer has IPv4 resources). -/
theorem C26_ip4_partial (h : Heap) (top : Resources) (st : List Resources) (hr : VReach (h, top :: st))
    (hset : top.ip4 ≠ none) (policy : Policy) (es : List AddrOrRange) (hes : es ≠ []) (h' : Heap) (r : Resources)
    (o : Out) (he : resourcesAddIp h (Resources.create policy false) (some top) ⟨[0, 1], .aors es⟩ = (h', r, o)) :
    TrimSpec R32.rng (h.ip4s top) policy (es.map decode4) o (h'.ip4s r) := by
  have hs := reach_inv hr
  have := trim_generic law32 decode4_good hs.good.g4 (hs.valid top List.mem_cons_self).v4 hset policy es hes
  simp only [resourcesAddIp, show getAddrFamily [0, 1] = .ip4 from rfl, Option.map_some, Resources.create] at he
  cases he
  exact this

/-- C26 (IPv6; part: the issuer has IPv6 resources). -/
theorem C26_ip6_partial (h : Heap) (top : Resources) (st : List Resources) (hr : VReach (h, top :: st))
    (hset : top.ip6 ≠ none) (policy : Policy) (es : List AddrOrRange) (hes : es ≠ []) (h' : Heap) (r : Resources)
    (o : Out) (he : resourcesAddIp h (Resources.create policy false) (some top) ⟨[0, 2], .aors es⟩ = (h', r, o)) :
    TrimSpec R6.rng (h.ip6s top) policy (es.map decode6) o (h'.ip6s r) := by
  have hs := reach_inv hr
  have := trim_generic law6 decode6_good hs.good.g6 (hs.valid top List.mem_cons_self).v6 hset policy es hes
  simp only [resourcesAddIp, show getAddrFamily [0, 2] = .ip6 from rfl, Option.map_some, Resources.create] at he
  cases he
  exact this

/-- C26 (AS numbers; part: the issuer has AS numbers). -/
theorem C26_asn_partial (h : Heap) (top : Resources) (st : List Resources) (hr : VReach (h, top :: st))
    (hset : top.asn ≠ none) (policy : Policy) (es : List AsIdOrRange) (hes : es ≠ []) (allow : Bool) (h' : Heap)
    (r : Resources) (o : Out)
    (he : resourcesAddAsn h (Resources.create policy false) (some top) ⟨some (.list es), false⟩ allow = (h', r, o)) :
    TrimSpec R32.rng (h.asns top) policy (es.map decodeAs) o (h'.asns r) := by
  have hs := reach_inv hr
  have := trim_generic law32 decodeAs_good hs.good.ga (hs.valid top List.mem_cons_self).va hset policy es hes
  simp only [resourcesAddAsn, Option.map_some, Resources.create, Bool.false_eq_true, if_false] at he
  cases he
  exact this

/-- An issuer without any IPv4 resources: a certificate that lists some is rejected, under RFC 8360 too, where they should
only have been dropped (the code takes two NULL pointers for an inherited set). -/
theorem C26_noSet (h : Heap) (top : Resources) (hset : top.ip4 = none) (policy : Policy) (es : List AddrOrRange) :
    (resourcesAddIp h (Resources.create policy false) (some top) ⟨[0, 1], .aors es⟩).2.2 = .err := by
  simp only [resourcesAddIp, show getAddrFamily [0, 1] = .ip4 from rfl, Option.map_some, Resources.create, hset, addList]
  cases es with
  | nil => simp
  | cons e es => simp [addLoop_err]

/-- A trust anchor with AS numbers 1 to 10, and nothing else. -/
def taAsOnly : Resources := ⟨none, none, some 0, .rfc6484, false⟩

theorem taAsOnly_push : initResources ⟨[], [], []⟩ none .rfc6484
    [.other, .asn true (some ⟨some (.list [.range [1] [10]]), false⟩)] .ta = (⟨[], [], [[⟨1, 10⟩]]⟩, taAsOnly, .ok) := by
  decide

/-- C26 is false in general: an RFC 8360 certificate that overclaims 10.0.0.0/8 is rejected instead of trimmed, in a
state that a validation reaches. -/
theorem C26_refuted : ∃ h top, VReach (h, [top]) ∧ ∃ es x, es.map decode4 = [some x] ∧ (∀ n, ¬ h.ip4s top n) ∧
    (resourcesAddIp h (Resources.create .rfc8360 false) (some top) ⟨[0, 1], .aors es⟩).2.2 = .err := by
  refine ⟨_, _, .step .init (.push taAsOnly_push), [.pfx ⟨[10], 0⟩], ⟨0x0A000000, 0x0AFFFFFF⟩, by decide, ?_,
    C26_noSet _ _ rfl _ _⟩
  rintro n ⟨l, hl, _⟩
  cases hl

/-! ### A chain: the hypotheses of the theorems above are met -/

theorem search1 (x y : R32) : sarraySearch cmp32 [x] y 0 0 = some (decide (cmp32 x y = .equal ∨ cmp32 x y = .child)) := by
  unfold sarraySearch
  cases h : cmp32 x y <;> simp [h]

/-- Trust anchor with AS 1 to 10 and 10.0.0.0/8. -/
def exTa : Heap × Resources := (⟨[[⟨0x0A000000, 0x0AFFFFFF⟩]], [], [[⟨1, 10⟩]]⟩, ⟨some 0, none, some 0, .rfc6484, false⟩)

theorem exTa_push : initResources ⟨[], [], []⟩ none .rfc6484
    [.ip true (some [⟨[0, 1], .aors [.pfx ⟨[10], 0⟩]⟩]), .asn true (some ⟨some (.list [.range [1] [10]]), false⟩)] .ta =
    (exTa.1, exTa.2, .ok) := by decide

/-- RFC 8360 certificate below it: AS 2, AS 12 to 13 (overclaimed), 10.0.0.0/8 inherited. -/
def exCa : Heap × Resources :=
  (⟨[[⟨0x0A000000, 0x0AFFFFFF⟩]], [], [[⟨1, 10⟩], [⟨2, 2⟩]]⟩, ⟨some 0, none, some 1, .rfc8360, false⟩)

theorem exCa_push : initResources exTa.1 (some exTa.2) .rfc8360
    [.asn true (some ⟨some (.list [.id [2], .range [12] [13]]), false⟩), .ip true (some [⟨[0, 1], .inherit⟩])] .ca =
    (exCa.1, exCa.2, .ok) := by
  simp [initResources, certificateGetResources, extLoop, handleAsnExtension, handleIpExtension, resourcesAddAsn,
    addList, addLoop, addElem, issuerHas, sarrayContains, search1, decodeAs, asId2u32, integer2ulong, exTa, exCa,
    Sets.deref, Resources.create, cmp32, sarrayAdd, sarrayCompare, addBlocks, resourcesAddIp, getAddrFamily, inheritSet]

theorem ex_reach : VReach (exCa.1, [exCa.2, exTa.2]) :=
  .step (.step .init (.push exTa_push)) (.push exCa_push)

/-- The chain is reachable, and the subset relation is not trivial there: AS 2 is in both, AS 3 only in the issuer. -/
example : exCa.1.asns exCa.2 2 ∧ exCa.1.asns exTa.2 3 ∧ ¬ exCa.1.asns exCa.2 3 := by
  refine ⟨⟨[⟨2, 2⟩], rfl, ⟨2, 2⟩, by simp [R32.rng], by simp [Rng.Has]⟩,
    ⟨[⟨1, 10⟩], rfl, ⟨1, 10⟩, by simp [R32.rng], by simp [Rng.Has]⟩, ?_⟩
  rintro ⟨l, hl, r, hr, hn⟩
  simp only [exCa, Sets.deref] at hl
  cases hl
  simp [R32.rng] at hr
  subst hr
  simp [Rng.Has] at hn

example := C25_chain _ _ ex_reach

end Verif.Res
