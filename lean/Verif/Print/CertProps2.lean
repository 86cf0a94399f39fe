import Verif.Print.CertProps
/-
C145 to C147: print mode; memory, and texts.
-/
namespace Verif.Print
open Verif.Res (Byte)

/-! ### C145: no undefined behaviour -/

/-- Never does anything undefined. -/
def Safe (b : B) (e : Env) : Prop := ∀ s, b e s ≠ .ub

/-- The full claim: whatever the certificate, and whichever allocations fail. -/
def NeverUndefined : Prop := ∀ (e : Env), e.Addresses → ∀ c : Cert, Safe (x509ToJson c) e

/-- An IP address block with a prefix of 17 bytes. -/
def exWide : Ext := ⟨⟨lit "sbgp-ipAddrBlock"⟩, true, .ir [⟨[0, 1], .aors [.pfx ⟨List.replicate 17 0, 0⟩]⟩]⟩

/-- False: `memcpy` writes past the end of `bin` if the prefix has more than 16 bytes. -/
theorem C145_refuted : ¬ NeverUndefined := by
  intro h
  have h1 : (x509ToJson (exCert [exWide]) exEnv ⟨0, 0⟩).value.isNone = true := by decide +kernel
  have := h exEnv exEnv_ok.2.1 (exCert [exWide]) ⟨0, 0⟩
  cases ho : x509ToJson (exCert [exWide]) exEnv ⟨0, 0⟩ with
  | ub => exact this ho
  | ret j s => rw [ho] at h1; cases h1

/-- And `json_strn_new` reads past the end of `buf` if the text of an object identifier has more than 64 characters. -/
theorem C145_refuted_oid : ∃ c : Cert, c.Readable exEnv ∧ ¬ Safe (x509ToJson c) exEnv := by
  refine ⟨exCert [exLong], exCert_readable _ ?_, fun h => ?_⟩
  · intro x hx
    simp only [List.mem_cons, List.not_mem_nil, or_false] at hx
    subst hx
    exact ⟨by decide, by simp [exLong, ExtVal.Readable]⟩
  · have h1 : (x509ToJson (exCert [exLong]) exEnv ⟨0, 0⟩).value.isNone = true := by decide +kernel
    cases ho : x509ToJson (exCert [exLong]) exEnv ⟨0, 0⟩ with
    | ub => exact h _ ho
    | ret j s => rw [ho] at h1; cases h1

theorem safe_prints {b : B} {e : Env} {o : Option J} (h : Prints b e o) : Safe b e := by
  intro s
  obtain ⟨r, s', h1, _⟩ := h s
  rw [h1]
  exact nofun

theorem safe_alloc (e : Env) (j : J) : Safe (alloc1 j) e := by
  intro s
  unfold alloc1
  split <;> exact nofun

theorem safe_str (e : Env) (t : List Byte) : Safe (strNew t) e := safe_prints (prints_str e t)

theorem safe_fillObj (e : Env) (l : List (String × B)) (h : ∀ x ∈ l, Safe x.2 e) : ∀ held done, Safe (fillObj held done l) e := by
  induction l with
  | nil => intro held done s; exact nofun
  | cons x l ih =>
    obtain ⟨k, b⟩ := x
    intro held done s
    have hb := h (k, b) (by simp) s
    unfold fillObj
    cases ho : b e s with
    | ub => exact absurd ho hb
    | ret r s1 =>
      cases r with
      | none => exact nofun
      | some j =>
        simp only
        split
        · exact ih (fun y hy => h y (by simp [hy])) _ _ _
        · exact nofun

theorem safe_fillArr (e : Env) (l : List B) (h : ∀ x ∈ l, Safe x e) : ∀ held done, Safe (fillArr held done l) e := by
  induction l with
  | nil => intro held done s; exact nofun
  | cons b l ih =>
    intro held done s
    have hb := h b (by simp) s
    unfold fillArr
    cases ho : b e s with
    | ub => exact absurd ho hb
    | ret r s1 =>
      cases r with
      | none => exact nofun
      | some j =>
        simp only
        split
        · exact ih (fun y hy => h y (by simp [hy])) _ _ _
        · exact nofun

theorem safe_fillRows (e : Env) (l : List (List (String × B))) (h : ∀ r ∈ l, ∀ x ∈ r, Safe x.2 e) : ∀ held done, Safe (fillRows held done l) e := by
  induction l with
  | nil => intro held done s; exact nofun
  | cons row l ih =>
    intro held done s
    unfold fillRows
    cases ho : objNew e s with
    | ub => exact absurd ho (safe_alloc e _ s)
    | ret r s1 =>
      cases r with
      | none => exact nofun
      | some j =>
        simp only
        split
        · cases hf : fillObj (held + (J.arr done).nodes) [] row e ⟨s1.n + 1, s1.live⟩ with
          | ub => exact absurd hf (safe_fillObj e row (h row (by simp)) _ _ _)
          | ret r2 s2 =>
            cases r2 with
            | none => exact nofun
            | some j2 => exact ih (fun y hy => h y (by simp [hy])) _ _ _
        · exact nofun

theorem safe_obj (e : Env) (l : List (String × B)) (h : ∀ x ∈ l, Safe x.2 e) : Safe (objB l) e := by
  intro s
  unfold objB
  cases ho : objNew e s with
  | ub => exact absurd ho (safe_alloc e _ s)
  | ret r s1 =>
    cases r with
    | none => exact nofun
    | some j => exact safe_fillObj e l h _ _ _

theorem safe_arr (e : Env) (l : List B) (h : ∀ x ∈ l, Safe x e) : Safe (arrB l) e := by
  intro s
  unfold arrB
  cases ho : arrayNew e s with
  | ub => exact absurd ho (safe_alloc e _ s)
  | ret r s1 =>
    cases r with
    | none => exact nofun
    | some j => exact safe_fillArr e l h _ _ _

theorem safe_rows (e : Env) (l : List (List (String × B))) (h : ∀ r ∈ l, ∀ x ∈ r, Safe x.2 e) : Safe (rowsB l) e := by
  intro s
  unfold rowsB
  cases ho : arrayNew e s with
  | ub => exact absurd ho (safe_alloc e _ s)
  | ret r s1 =>
    cases r with
    | none => exact nofun
    | some j => exact safe_fillRows e l h _ _ _

theorem safe_bufStr (e : Env) (n : Nat) (t : List Byte) (h : t.length ≤ n) : Safe (bufStr n t) e := by
  unfold bufStr
  split
  · exact safe_str e t
  · rw [if_pos (by omega)]
    exact safe_str e _

theorem safe_oid (e : Env) (o : Oid) (h : o.Bounded) : Safe (oid2json o) e := safe_bufStr e 64 o.txt h

theorem dec_length10 (f n : Nat) (k : Nat) (h : n < 10 ^ (k + 1)) (hf : n ≤ f) : (decDigits f n).length ≤ k + 1 := by
  induction f generalizing n k with
  | zero => simp [decDigits]
  | succ f ih =>
    unfold decDigits
    by_cases h10 : n < 10
    · rw [if_pos h10]; simp
    · rw [if_neg h10]
      cases k with
      | zero => omega
      | succ k =>
        have hlt : n / 10 < 10 ^ (k + 1) := by
          rw [Nat.div_lt_iff_lt_mul (by omega)]
          calc n < 10 ^ (k + 1 + 1) := h
            _ = 10 ^ (k + 1) * 10 := by rw [Nat.pow_succ]
        have := ih (n / 10) k hlt (by omega)
        simp only [List.length_append, List.length_cons, List.length_nil]
        omega

/-- The address of all zeroes is short. -/
def Env.ShortZero (e : Env) : Prop := (e.ntop4 (List.replicate 4 0)).length ≤ 15 ∧ (e.ntop6 (List.replicate 16 0)).length ≤ 39

theorem safe_prefix (e : Env) (ha : e.Addresses) (hz : e.ShortZero) (af : Fam) (b : Bits) (h : b.data.length ≤ 16) (hl : b.left ≤ 7) : Safe (p2json b af) e := by
  intro s
  unfold p2json
  rw [if_neg (by omega)]
  simp only
  refine safe_bufStr e 50 _ ?_ s
  simp only [List.length_append, List.length_cons, List.length_nil]
  have hn := ntop_length e ha af (b.data ++ List.replicate (16 - b.data.length) 0) (by simp; omega)
  cases hd : b.data with
  | nil =>
    have h39 : (ntop e af (List.replicate 16 0)).length ≤ 39 := by
      cases af with
      | v4 => have := hz.1; show (e.ntop4 (List.replicate 4 0)).length ≤ 39; omega
      | v6 => exact hz.2
    have hmod : (((8 * ([] : List Byte).length : Nat) : Int) - b.left).emod (2 ^ 32) < 2 ^ 32 := Int.emod_lt_of_pos _ (by decide)
    have := dec_length10 ((((8 * ([] : List Byte).length : Nat) : Int) - b.left).emod (2 ^ 32)).toNat ((((8 * ([] : List Byte).length : Nat) : Int) - b.left).emod (2 ^ 32)).toNat 9 (by omega) (Nat.le_refl _)
    have hd10 : (dec ((((8 * ([] : List Byte).length : Nat) : Int) - b.left).emod (2 ^ 32)).toNat).length ≤ 10 := this
    simp only [List.nil_append, List.length_nil, Nat.sub_zero] at h39 hd10 ⊢
    omega
  | cons x l =>
    rw [← hd]
    have hlen : ((((8 * b.data.length : Nat) : Int) - b.left).emod (2 ^ 32)).toNat = 8 * b.data.length - b.left := by
      have h8 : b.left ≤ 8 * b.data.length := by rw [hd]; simp only [List.length_cons]; omega
      have : (((8 * b.data.length : Nat) : Int) - b.left).emod (2 ^ 32) = ((8 * b.data.length : Nat) : Int) - b.left := Int.emod_eq_of_lt (by omega) (by omega)
      rw [this]
      omega
    rw [hlen]
    have := dec_length (8 * b.data.length - b.left) (by omega)
    omega

/-- `ASN1_STRING_FLAG_BITS_LEFT` is followed by three bits. -/
def ExtVal.Left : ExtVal → Prop
  | .ir l => ∀ f ∈ l, ∀ a, f.choice = .aors a → ∀ b, IpAor.pfx b ∈ a → b.left ≤ 7
  | _ => True

theorem safe_ext (e : Env) (ha : e.Addresses) (hz : e.ShortZero) (x : ExtVal) (h : x.Bounded) (hl : x.Left) : Safe (ext2json x) e := by
  cases x with
  | cdp l =>
    refine safe_rows e _ (fun r hr y hy => ?_)
    obtain ⟨d, hd, rfl⟩ := List.mem_map.1 hr
    simp only [List.mem_cons, List.not_mem_nil, or_false] at hy
    rcases hy with rfl | rfl | rfl
    · cases hn : d.name with
      | none => exact safe_prints (prints_static e .null rfl)
      | some n =>
        have := h d hd n hn
        cases n with
        | full g => exact safe_prints (prints_genNames e g)
        | relative g =>
          refine safe_rows e _ (fun r hr y hy => ?_)
          obtain ⟨z, hz, rfl⟩ := List.mem_map.1 hr
          simp only [List.mem_cons, List.not_mem_nil, or_false] at hy
          rcases hy with rfl | rfl
          · exact safe_oid e _ (this z hz)
          · exact safe_prints (prints_bytes e _)
    · exact safe_prints (prints_absent e _)
    · exact safe_prints (prints_orNull e gns2json (genNamesDoc e) d.issuer rfl (fun n _ => prints_genNames e n))
  | aia l =>
    refine safe_rows e _ (fun r hr y hy => ?_)
    obtain ⟨z, hz, rfl⟩ := List.mem_map.1 hr
    simp only [List.mem_cons, List.not_mem_nil, or_false] at hy
    rcases hy with rfl | rfl
    · exact safe_oid e _ (h z hz)
    · exact safe_prints (prints_genName e _)
  | cp l =>
    refine safe_arr e _ (fun b hb => ?_)
    obtain ⟨x, hx, rfl⟩ := List.mem_map.1 hb
    refine safe_obj e _ (fun y hy => ?_)
    simp only [List.mem_cons, List.not_mem_nil, or_false] at hy
    rcases hy with rfl | rfl
    · exact safe_oid e _ (h x hx).1
    · cases hq : x.2 with
      | none => exact safe_prints (prints_static e .null rfl)
      | some q =>
        refine safe_arr e _ (fun b hb => ?_)
        obtain ⟨o, ho, rfl⟩ := List.mem_map.1 hb
        have hob := (h x hx).2 q hq o ho
        have hin : Safe (objB [("policyQualifierId", oid2json o), ("qualifier", unimplemented true)]) e := by
          refine safe_obj e _ (fun y hy => ?_)
          simp only [List.mem_cons, List.not_mem_nil, or_false] at hy
          rcases hy with rfl | rfl
          · exact safe_oid e o hob
          · exact safe_str e _
        intro s
        unfold pq2json
        cases hr : objB [("policyQualifierId", oid2json o), ("qualifier", unimplemented true)] e s with
        | ub => exact absurd hr (hin s)
        | ret r s1 => cases r <;> exact nofun
  | ir l =>
    refine safe_arr e _ (fun b hb => ?_)
    obtain ⟨f, hf, rfl⟩ := List.mem_map.1 hb
    unfold iaf2json
    cases hfam : famOf f.af with
    | none =>
      refine safe_obj e _ (fun y hy => ?_)
      simp only [List.mem_cons, List.not_mem_nil, or_false] at hy
      subst hy
      exact safe_prints (prints_fail e)
    | some af =>
      refine safe_obj e _ (fun y hy => ?_)
      simp only [List.mem_cons, List.not_mem_nil, or_false] at hy
      rcases hy with rfl | rfl
      · exact safe_str e _
      · cases hc : f.choice with
        | inherit => exact safe_str e _
        | aors a =>
          refine safe_arr e _ (fun b hb => ?_)
          obtain ⟨z, hz', rfl⟩ := List.mem_map.1 hb
          cases z with
          | range x y => exact safe_str e _
          | pfx b => exact safe_prefix e ha hz af b (h f hf a hc b hz') (hl f hf a hc b hz')
  | eku l =>
    refine safe_arr e _ (fun b hb => ?_)
    obtain ⟨o, ho, rfl⟩ := List.mem_map.1 hb
    exact safe_oid e o (h o ho)
  | bc ca p => exact safe_prints (prints_ext e ha (.bc ca p) trivial)
  | ski id => exact safe_prints (prints_ext e ha (.ski id) trivial)
  | aki k i s => exact safe_prints (prints_ext e ha (.aki k i s) trivial)
  | ku b => exact safe_prints (prints_ext e ha (.ku b) trivial)
  | ar a r => exact safe_prints (prints_ext e ha (.ar a r) trivial)
  | amended raw => exact safe_prints (prints_fail e)
  | cn n => exact safe_prints (prints_ext e ha (.cn n) trivial)
  | bad raw => exact safe_prints (prints_fail e)
  | unknown raw => exact safe_prints (prints_ext e ha (.unknown raw) trivial)

theorem safe_exts (e : Env) (ha : e.Addresses) (hz : e.ShortZero) (l : List Ext) (h : ExtsBounded l) (hl : ∀ x ∈ l, x.val.Left) : Safe (exts2json l) e := by
  cases l with
  | nil => exact safe_prints (prints_static e .null rfl)
  | cons x l =>
    refine safe_rows e _ (fun r hr y hy => ?_)
    obtain ⟨z, hz', rfl⟩ := List.mem_map.1 hr
    simp only [List.mem_cons, List.not_mem_nil, or_false] at hy
    rcases hy with rfl | rfl | rfl
    · exact safe_oid e _ (h z hz').1
    · exact safe_prints (prints_static e _ rfl)
    · exact safe_ext e ha hz _ (h z hz').2 (hl z hz')

/-- It's true of certificates, with whatever extensions, policy qualifiers included, as long as no object identifier's text has more than 64 characters and no prefix has more than 16 bytes. -/
theorem C145_partial (e : Env) (ha : e.Addresses) (hz : e.ShortZero) (c : Cert) (h : c.Bounded) (hl : ∀ x ∈ c.exts, x.val.Left) : Safe (x509ToJson c) e := by
  obtain ⟨h1, h2, h3⟩ := h
  refine safe_obj e _ (fun y hy => ?_)
  simp only [List.mem_cons, List.not_mem_nil, or_false] at hy
  rcases hy with rfl | rfl | rfl
  · refine safe_obj e _ (fun y hy => ?_)
    simp only [List.mem_cons, List.not_mem_nil, or_false] at hy
    rcases hy with rfl | rfl | rfl | rfl | rfl | rfl | rfl | rfl | rfl | rfl
    · exact safe_prints (prints_int e _)
    · exact safe_prints (prints_int1 e _)
    · exact safe_str e _
    · exact safe_prints (prints_name e _)
    · exact safe_prints (prints_obj e _ _ (.cons _ _ _ _ _ (prints_time e _) (.cons _ _ _ _ _ (prints_time e _) .nil)))
    · exact safe_prints (prints_name e _)
    · refine safe_obj e _ (fun y hy => ?_)
      simp only [List.mem_cons, List.not_mem_nil, or_false] at hy
      rcases hy with rfl | rfl
      · exact safe_oid e _ h1
      · exact safe_prints (prints_pubkey e _)
    · exact safe_prints (prints_optBytes e _)
    · exact safe_prints (prints_optBytes e _)
    · exact safe_exts e ha hz _ h3 hl
  · exact safe_oid e _ h2
  · exact safe_prints (prints_bytes e _)

/-- The same, of CRLs. -/
theorem C145_partial_crl (e : Env) (ha : e.Addresses) (hz : e.ShortZero) (c : Crl) (h : c.Bounded) (hl : ∀ x ∈ c.exts, x.val.Left) (hl2 : ∀ r ∈ c.revoked, ∀ x ∈ r.exts, x.val.Left) : Safe (crl2json c) e := by
  obtain ⟨h1, h2, h3⟩ := h
  refine safe_obj e _ (fun y hy => ?_)
  simp only [List.mem_cons, List.not_mem_nil, or_false] at hy
  rcases hy with rfl | rfl | rfl
  · refine safe_obj e _ (fun y hy => ?_)
    simp only [List.mem_cons, List.not_mem_nil, or_false] at hy
    rcases hy with rfl | rfl | rfl | rfl | rfl | rfl | rfl
    · exact safe_prints (prints_int e _)
    · exact safe_str e _
    · exact safe_prints (prints_name e _)
    · exact safe_prints (prints_time e _)
    · exact safe_prints (prints_optTime e _)
    · refine safe_rows e _ (fun r hr y hy => ?_)
      obtain ⟨z, hz', rfl⟩ := List.mem_map.1 hr
      simp only [List.mem_cons, List.not_mem_nil, or_false] at hy
      rcases hy with rfl | rfl | rfl
      · exact safe_prints (prints_int1 e _)
      · exact safe_prints (prints_time e _)
      · exact safe_exts e ha hz _ (h3 z hz') (hl2 z hz')
    · exact safe_exts e ha hz _ h2 hl
  · exact safe_oid e _ h1
  · exact safe_prints (prints_bytes e _)

/-- Policies with a qualifier, a prefix of 16 bytes and a text of 64 characters. -/
def exEdge : List Ext :=
  [exPolicy, ⟨⟨List.replicate 64 0x31⟩, true, .ir [⟨[0, 1], .aors [.pfx ⟨List.replicate 16 0, 7⟩, .pfx ⟨[], 7⟩]⟩]⟩]

example : (exCert exEdge).Bounded ∧ (∀ x ∈ (exCert exEdge).exts, x.val.Left) ∧ exEnv.ShortZero := by
  refine ⟨⟨by unfold Oid.Bounded; decide, by unfold Oid.Bounded; decide, ?_⟩, ?_, ?_, ?_⟩
  · intro x hx
    simp only [exCert, exEdge, List.mem_cons, List.not_mem_nil, or_false] at hx
    rcases hx with rfl | rfl
    · refine ⟨by unfold Oid.Bounded; decide, ?_⟩
      show ∀ y ∈ [_], _
      intro y hy
      simp only [List.mem_cons, List.not_mem_nil, or_false] at hy
      subst hy
      refine ⟨by unfold Oid.Bounded; decide, ?_⟩
      intro q hq o ho
      injection hq with hq
      subst hq
      simp only [List.mem_cons, List.not_mem_nil, or_false] at ho
      subst ho
      unfold Oid.Bounded
      decide
    · refine ⟨by unfold Oid.Bounded; decide, ?_⟩
      show ∀ y ∈ [_], _
      intro y hy l hl b hb
      simp only [List.mem_cons, List.not_mem_nil, or_false] at hy
      subst hy
      injection hl with hl
      subst hl
      simp only [List.mem_cons, List.not_mem_nil, or_false, IpAor.pfx.injEq] at hb
      rcases hb with rfl | rfl <;> decide
  · intro x hx
    simp only [exCert, exEdge, List.mem_cons, List.not_mem_nil, or_false] at hx
    rcases hx with rfl | rfl
    · trivial
    · show ∀ y ∈ [_], _
      intro y hy l hl b hb
      simp only [List.mem_cons, List.not_mem_nil, or_false] at hy
      subst hy
      injection hl with hl
      subst hl
      simp only [List.mem_cons, List.not_mem_nil, or_false, IpAor.pfx.injEq] at hb
      rcases hb with rfl | rfl <;> decide
  · show (lit "192.0.2.0").length ≤ 15; decide
  · show (lit "2001:db8::").length ≤ 39; decide

/-! ### C146: nothing is left allocated -/

/-- Whatever fails, all that's left allocated is the document that's returned. -/
def NoLeak (b : B) (e : Env) : Prop := ∀ s r s', b e s = .ret r s' → s'.live = s.live + (match r with | some j => (j.nodes : Int) | none => 0)

/-- False: `pq2json` loses the object it makes. -/
theorem C146_refuted : ¬ ∀ (e : Env), e.Addresses → ∀ c : Cert, NoLeak (x509ToJson c) e := by
  intro h
  have h1 : (x509ToJson (exCert [exPolicy]) exEnv ⟨0, 0⟩).liveAfter = some 3 := by decide +kernel
  obtain ⟨s', hs'⟩ := out_none (o := x509ToJson (exCert [exPolicy]) exEnv ⟨0, 0⟩) (by decide +kernel)
  have := h exEnv exEnv_ok.2.1 (exCert [exPolicy]) ⟨0, 0⟩ none s' hs'
  rw [hs'] at h1
  injection h1 with h1
  rw [h1] at this
  simp at this

/-- It's true of certificates and CRLs whose extensions print mode gets right. -/
theorem C146_partial (e : Env) (ha : e.Addresses) (c : Cert) (h : c.Fine) : NoLeak (x509ToJson c) e := by
  intro s r s' hr
  obtain ⟨r2, s2, h1, _, _, h4⟩ := prints_cert e ha c h s
  rw [hr] at h1
  injection h1 with h1 h2
  subst h1 h2
  exact h4

theorem C146_partial_crl (e : Env) (ha : e.Addresses) (c : Crl) (h : c.Fine) : NoLeak (crl2json c) e := by
  intro s r s' hr
  obtain ⟨r2, s2, h1, _, _, h4⟩ := prints_crl e ha c h s
  rw [hr] at h1
  injection h1 with h1 h2
  subst h1 h2
  exact h4

/-- The 20th allocation fails. -/
example : ∃ s', x509ToJson (exCert exExts) { exEnv with alloc := fun n => n != 20 } ⟨0, 0⟩ = .ret none s' ∧ s'.live = 0 := by
  obtain ⟨s', hs'⟩ := out_none (o := x509ToJson (exCert exExts) { exEnv with alloc := fun n => n != 20 } ⟨0, 0⟩) (by decide +kernel)
  have := C146_partial { exEnv with alloc := fun n => n != 20 } exEnv_ok.2.1 (exCert exExts) exCert_fine ⟨0, 0⟩ none s' hs'
  exact ⟨s', hs', by simpa using this⟩

/-! ### C147: the texts can be read back -/

/-- Numbers: `hexInt` reads the number back. -/
theorem C147_number (e : Env) (i : Int) (j : J) (h : Returns (asn1int2json (some i)) e (some j)) : ∃ t, j = .str t ∧ hexInt t = some i := by
  obtain ⟨s, hs⟩ := h
  obtain ⟨r, s', h1, h2, _, _⟩ := prints_int1 e i ⟨0, 0⟩
  rw [hs] at h1
  injection h1 with h1 _
  have := h2 j h1.symm
  unfold intDoc text at this
  split at this
  · injection this with this
    exact ⟨_, this.symm, hexInt_bnHex i⟩
  · cases this

/-- Bytes: `hexBytes` reads them back. -/
theorem C147_bytes (e : Env) (l : List Byte) (j : J) (h : Returns (asn1str2json (some l)) e (some j)) : ∃ t, j = .str t ∧ hexBytes t = some l := by
  obtain ⟨s, hs⟩ := h
  obtain ⟨r, s', h1, h2, _, _⟩ := prints_bytes e l ⟨0, 0⟩
  rw [hs] at h1
  injection h1 with h1 _
  have := h2 j h1.symm
  unfold bytesDoc at this
  split at this
  · cases this
  · unfold text at this
    split at this
    · injection this with this
      exact ⟨_, this.symm, hexBytes_hexOf l⟩
    · cases this

/-- The prefix's text: the address, as libc writes it, a slash, and the length. -/
def TextOfPrefix (e : Env) (af : Fam) (b : Bits) (t : List Byte) : Prop :=
  ∃ a n, t = a ++ 0x2F :: n ∧ a = (match af with | .v4 => e.ntop4 | .v6 => e.ntop6) ((b.data ++ List.replicate 16 0).take af.bytes) ∧ decNum n = some (8 * b.data.length - b.left)

/-- The full claim for prefixes. -/
def PrefixesFaithful : Prop := ∀ (e : Env), e.Addresses → ∀ (af : Fam) (b : Bits), b.left ≤ 7 → ∀ j, Returns (p2json b af) e (some j) → ∃ t, j = .str t ∧ TextOfPrefix e af b t

/-- False: if there are no bytes, then unused bits are subtracted from 0, and the length is beyond 4 thousand million. -/
theorem C147_refuted : ¬ PrefixesFaithful := by
  intro h
  have hv : p2json ⟨[], 7⟩ .v4 exEnv ⟨0, 0⟩ = .ret (some (.str (lit "192.0.2.0/4294967289"))) ⟨1, 1⟩ := by rfl
  obtain ⟨t, ht, a, n, h1, h2, h3⟩ := h exEnv exEnv_ok.2.1 .v4 ⟨[], 7⟩ (by decide) _ ⟨_, hv⟩
  injection ht with ht
  subst ht
  have h2' : a = lit "192.0.2.0" := h2
  subst h2'
  have hn : n = lit "4294967289" := by
    have : lit "192.0.2.0/4294967289" = lit "192.0.2.0" ++ 0x2F :: lit "4294967289" := by decide
    rw [this] at h1
    have := List.append_cancel_left h1
    injection this with _ this
    exact this.symm
  subst hn
  have : decNum (lit "4294967289") = some 4294967289 := by decide
  rw [this] at h3
  exact absurd h3 (by decide)

/-- It's true of prefixes: not longer than an address of the family, and with no more unused bits than bits. -/
theorem C147_partial (e : Env) (ha : e.Addresses) (af : Fam) (b : Bits) (h : b.Fits af) (j : J) (hj : Returns (p2json b af) e (some j)) :
    ∃ t, j = .str t ∧ TextOfPrefix e af b t := by
  obtain ⟨s, hs⟩ := hj
  obtain ⟨r, s', h1, h2, _, _⟩ := prints_prefix e ha af b h ⟨0, 0⟩
  rw [hs] at h1
  injection h1 with h1 _
  have := h2 j h1.symm
  unfold text at this
  split at this
  · injection this with this
    have h16 := fam_bytes_le af
    have hlen := h.1
    refine ⟨_, this.symm, ntop e af (b.data ++ List.replicate (16 - b.data.length) 0), dec (8 * b.data.length - b.left), ?_, ?_, decNum_digits _ _ (Nat.le_refl _)⟩
    · unfold prefixText; simp
    · cases af with
      | v4 =>
        show e.ntop4 _ = e.ntop4 _
        congr 1
        have hl : b.data.length ≤ 4 := hlen
        rw [List.take_append, List.take_append]
        congr 1
        rw [List.take_replicate, List.take_replicate]
        congr 1
        show min (4 - b.data.length) (16 - b.data.length) = min (Fam.v4.bytes - b.data.length) 16
        have : Fam.v4.bytes = 4 := rfl
        omega
      | v6 =>
        show e.ntop6 _ = e.ntop6 _
        congr 1
        have hl : b.data.length ≤ Fam.v6.bytes := hlen
        rw [List.take_append, List.take_of_length_le hl, List.take_replicate]
        congr 2
        show 16 - b.data.length = min (Fam.v6.bytes - b.data.length) 16
        have : Fam.v6.bytes = 16 := rfl
        omega
  · cases this

example : Bits.Fits ⟨[192, 0, 2], 0⟩ .v4 ∧ ∃ j, Returns (p2json ⟨[192, 0, 2], 0⟩ .v4) exEnv (some j) := ⟨by decide, _, ⟨1, 1⟩, rfl⟩
example : ∃ j, Returns (asn1int2json (some (-300))) exEnv (some j) := ⟨_, ⟨1, 1⟩, rfl⟩
example : ∃ j, Returns (asn1str2json (some [0xAB])) exEnv (some j) := ⟨_, ⟨1, 1⟩, rfl⟩

end Verif.Print
