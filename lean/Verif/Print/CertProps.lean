import Verif.Print.TextLemmas
/-
C143 to C147: print mode, certificates and CRLs.
-/
namespace Verif.Print
open Verif.Res (Byte)

/-! ### There is a document -/

theorem allMembers_some (l : List (String × Option J)) (h : ∀ x ∈ l, ∃ j, x.2 = some j) : ∃ ms, allMembers l = some ms := by
  induction l with
  | nil => exact ⟨[], rfl⟩
  | cons x l ih =>
    obtain ⟨k, o⟩ := x
    obtain ⟨j, hj⟩ := h (k, o) (by simp)
    simp only at hj
    subst hj
    obtain ⟨ms, hm⟩ := ih (fun y hy => h y (by simp [hy]))
    exact ⟨(k, j) :: ms, by simp [allMembers, hm]⟩

theorem object_some (l : List (String × Option J)) (h : ∀ x ∈ l, ∃ j, x.2 = some j) : ∃ j, object l = some j := by
  obtain ⟨ms, hm⟩ := allMembers_some l h
  exact ⟨_, by unfold object; rw [hm]; rfl⟩

theorem all_some (l : List (Option J)) (h : ∀ x ∈ l, ∃ j, x = some j) : ∃ ms, all l = some ms := by
  induction l with
  | nil => exact ⟨[], rfl⟩
  | cons o l ih =>
    obtain ⟨j, hj⟩ := h o (by simp)
    subst hj
    obtain ⟨ms, hm⟩ := ih (fun y hy => h y (by simp [hy]))
    exact ⟨j :: ms, by simp [all, hm]⟩

theorem array_some {α : Type} (l : List α) (f : α → Option J) (h : ∀ x ∈ l, ∃ j, f x = some j) : ∃ j, array (l.map f) = some j := by
  obtain ⟨ms, hm⟩ := all_some (l.map f) (by intro x hx; obtain ⟨a, ha, rfl⟩ := List.mem_map.1 hx; exact h a ha)
  exact ⟨_, by unfold array; rw [hm]; rfl⟩

theorem text_some (e : Env) (s : List Byte) (h : e.utf8 s = true) : ∃ j, text e s = some j := ⟨_, by unfold text; rw [if_pos h]⟩

theorem orNull_some {α : Type} (f : α → Option J) (o : Option α) (h : ∀ a, o = some a → ∃ j, f a = some j) : ∃ j, orNull f o = some j := by
  cases o with
  | none => exact ⟨_, rfl⟩
  | some a => exact h a rfl

theorem intDoc_some (e : Env) (hr : e.Reads) (i : Int) : ∃ j, intDoc e i = some j := text_some e _ (hr _ (bnHex_ascii i))

theorem bytesDoc_some (e : Env) (hr : e.Reads) (l : List Byte) (h : l ≠ []) : ∃ j, bytesDoc e l = some j := by
  unfold bytesDoc
  rw [if_neg h]
  exact text_some e _ (hr _ (hexOf_ascii _ (Or.inr rfl) l))

theorem optBytes_some (e : Env) (hr : e.Reads) (l : Option (List Byte)) (h : l ≠ some []) : ∃ j, orNull (bytesDoc e) l = some j :=
  orNull_some _ _ (fun a ha => bytesDoc_some e hr a (by rintro rfl; exact h ha))

theorem lit_some (e : Env) (hr : e.Reads) (s : List Byte) (h : s.all (fun b => decide (b.toNat < 128)) = true) : ∃ j, text e s = some j :=
  text_some e _ (hr _ (fun b hb => by simpa using List.all_eq_true.1 h b hb))

theorem timeDoc_some (e : Env) (t : ATime) (h : t.Readable e) : ∃ j, timeDoc e t = some j := by
  obtain ⟨s, h1, h2⟩ := h
  unfold timeDoc
  rw [h1]
  exact text_some e s h2

theorem nameDoc_some (e : Env) (n : Name) (h : NameReadable e n) : ∃ j, nameDoc e n = some j := by
  refine object_some _ (fun x hx => ?_)
  simp only [List.mem_cons, List.not_mem_nil, or_false] at hx
  subst hx
  refine array_some n _ (fun y hy => object_some _ (fun z hz => ?_))
  simp only [List.mem_cons, List.not_mem_nil, or_false] at hz
  rcases hz with rfl | rfl
  · exact text_some e _ (h y hy).1
  · exact text_some e _ (h y hy).2

theorem absent_some (e : Env) (hr : e.Reads) (b : Bool) : ∃ j, absentDoc e b = some j := by
  unfold absentDoc
  split
  · exact lit_some e hr _ (by decide)
  · exact ⟨_, rfl⟩

theorem genNameDoc_some (e : Env) (hr : e.Reads) (g : GenName) (h : g.Readable e) : ∃ j, genNameDoc e g = some j := by
  cases g with
  | uri s => exact text_some e s h
  | other => exact lit_some e hr _ (by decide)

theorem genNamesDoc_some (e : Env) (hr : e.Reads) (l : List GenName) (h : ∀ g ∈ l, g.Readable e) : ∃ j, genNamesDoc e l = some j :=
  array_some l _ (fun g hg => genNameDoc_some e hr g (h g hg))

theorem kuDoc_some (b : List Byte) (h : b.length = 1 ∨ b.length = 2) : ∃ j, kuDoc b = some j := by
  unfold kuDoc
  rw [if_pos h]
  exact ⟨_, rfl⟩

theorem prefixText_ascii (e : Env) (ha : e.AsciiAddresses) (af : Fam) (b : Bits) : Ascii (prefixText e af b) := by
  intro x hx
  unfold prefixText at hx
  simp only [List.mem_append, List.mem_cons, List.not_mem_nil, or_false] at hx
  rcases hx with (hx | rfl) | hx
  · cases af with
    | v4 => exact ha.1 _ x hx
    | v6 => exact ha.2 _ x hx
  · decide
  · exact decDigits_ascii _ _ x hx

theorem extDoc_some (e : Env) (hr : e.Reads) (ha : e.AsciiAddresses) (x : ExtVal) (h : x.Readable e) : ∃ j, extDoc e x = some j := by
  have two : ∀ (a b : String × Option J), (∃ j, a.2 = some j) → (∃ j, b.2 = some j) → ∃ j, object [a, b] = some j := by
    intro a b h1 h2
    refine object_some _ (fun z hz => ?_)
    simp only [List.mem_cons, List.not_mem_nil, or_false] at hz
    rcases hz with rfl | rfl
    · exact h1
    · exact h2
  have three : ∀ (a b c : String × Option J), (∃ j, a.2 = some j) → (∃ j, b.2 = some j) → (∃ j, c.2 = some j) → ∃ j, object [a, b, c] = some j := by
    intro a b c h1 h2 h3
    refine object_some _ (fun z hz => ?_)
    simp only [List.mem_cons, List.not_mem_nil, or_false] at hz
    rcases hz with rfl | rfl | rfl
    · exact h1
    · exact h2
    · exact h3
  cases x with
  | bc ca p => exact two _ _ ⟨_, rfl⟩ (orNull_some _ _ (fun a _ => intDoc_some e hr a))
  | ski id => exact bytesDoc_some e hr id h
  | aki k i s => exact three _ _ _ (optBytes_some e hr k h) (absent_some e hr i) (orNull_some _ _ (fun a _ => intDoc_some e hr a))
  | ku b => exact kuDoc_some b h
  | cdp l =>
    refine array_some l _ (fun d hd => three _ _ _ ?_ (absent_some e hr _) (orNull_some _ _ (fun i hi => genNamesDoc_some e hr i ((h d hd).2 i hi))))
    refine orNull_some _ _ (fun n hn => ?_)
    have := (h d hd).1 n hn
    cases n with
    | full l => exact genNamesDoc_some e hr l this
    | relative l => exact array_some l _ (fun y hy => two _ _ (text_some e _ (this y hy).1) (bytesDoc_some e hr _ (this y hy).2))
  | aia l => exact array_some l _ (fun y hy => two _ _ (text_some e _ (h y hy).1) (genNameDoc_some e hr _ (h y hy).2))
  | cp l =>
    refine array_some l _ (fun y hy => two _ _ (text_some e _ (h y hy).1) (orNull_some _ _ (fun q hq => array_some q _ (fun o ho => ?_))))
    exact two _ _ (text_some e _ ((h y hy).2 q hq o ho)) (lit_some e hr _ (by decide))
  | ir l =>
    refine array_some l _ (fun f hf => ?_)
    obtain ⟨af, haf, hb⟩ := h f hf
    unfold ipFamDoc
    rw [haf]
    refine two _ _ (lit_some e hr _ (by cases af <;> decide)) ?_
    cases hc : f.choice with
    | inherit => exact lit_some e hr _ (by decide)
    | aors l =>
      refine array_some l _ (fun a hal => ?_)
      cases a with
      | range x y => exact lit_some e hr _ (by decide)
      | pfx b =>
        rw [show ipDoc e af (.pfx b) = if b.Fits af then text e (prefixText e af b) else none from rfl, if_pos (hb l hc b hal)]
        exact text_some e _ (hr _ (prefixText_ascii e ha af b))
  | ar a r =>
    have : ∀ c : Option AsChoice, ∃ j, orNull (asChoiceDoc e) c = some j := by
      intro c
      refine orNull_some _ _ (fun c _ => ?_)
      cases c with
      | inherit => exact lit_some e hr _ (by decide)
      | aors l =>
        refine array_some l _ (fun a _ => ?_)
        cases a with
        | id i => exact intDoc_some e hr i
        | range a b => exact two _ _ (intDoc_some e hr a) (intDoc_some e hr b)
    exact two _ _ (this a) (this r)
  | amended raw => exact bytesDoc_some e hr raw h
  | cn n => exact intDoc_some e hr n
  | eku l => exact array_some l _ (fun o ho => text_some e _ (h o ho))
  | bad raw => exact h.elim
  | unknown raw => exact bytesDoc_some e hr raw h

theorem extsDoc_some (e : Env) (hr : e.Reads) (ha : e.AsciiAddresses) (l : List Ext) (h : ExtsReadable e l) : ∃ j, extsDoc e l = some j := by
  unfold extsDoc
  split
  · exact ⟨_, rfl⟩
  · refine array_some l _ (fun x hx => object_some _ (fun z hz => ?_))
    simp only [List.mem_cons, List.not_mem_nil, or_false] at hz
    rcases hz with rfl | rfl | rfl
    · exact text_some e _ (h x hx).1
    · exact ⟨_, rfl⟩
    · exact extDoc_some e hr ha _ (h x hx).2

theorem certDoc_some (e : Env) (hr : e.Reads) (ha : e.AsciiAddresses) (c : Cert) (h : c.Readable e) : ∃ j, certDoc e c = some j := by
  obtain ⟨h1, h2, h3, h4, h5, h6, ⟨k, h7, h7'⟩, h8, h9, h10, h11, h12⟩ := h
  refine object_some _ (fun z hz => ?_)
  simp only [List.mem_cons, List.not_mem_nil, or_false] at hz
  rcases hz with rfl | rfl | rfl
  · refine object_some _ (fun z hz => ?_)
    simp only [List.mem_cons, List.not_mem_nil, or_false] at hz
    rcases hz with rfl | rfl | rfl | rfl | rfl | rfl | rfl | rfl | rfl | rfl
    · exact ⟨_, rfl⟩
    · exact intDoc_some e hr _
    · exact text_some e _ h1
    · exact nameDoc_some e _ h2
    · refine object_some _ (fun z hz => ?_)
      simp only [List.mem_cons, List.not_mem_nil, or_false] at hz
      rcases hz with rfl | rfl
      · exact timeDoc_some e _ h3
      · exact timeDoc_some e _ h4
    · exact nameDoc_some e _ h5
    · refine object_some _ (fun z hz => ?_)
      simp only [List.mem_cons, List.not_mem_nil, or_false] at hz
      rcases hz with rfl | rfl
      · exact text_some e _ h6
      · rw [h7]; exact text_some e _ h7'
    · exact optBytes_some e hr _ h8
    · exact optBytes_some e hr _ h9
    · exact extsDoc_some e hr ha _ h10
  · exact text_some e _ h11
  · exact bytesDoc_some e hr _ h12

theorem crlDoc_some (e : Env) (hr : e.Reads) (ha : e.AsciiAddresses) (c : Crl) (h : c.Readable e) : ∃ j, crlDoc e c = some j := by
  obtain ⟨h1, h2, h3, h4, h5, h6, h7, h8⟩ := h
  refine object_some _ (fun z hz => ?_)
  simp only [List.mem_cons, List.not_mem_nil, or_false] at hz
  rcases hz with rfl | rfl | rfl
  · refine object_some _ (fun z hz => ?_)
    simp only [List.mem_cons, List.not_mem_nil, or_false] at hz
    rcases hz with rfl | rfl | rfl | rfl | rfl | rfl | rfl
    · exact ⟨_, rfl⟩
    · exact text_some e _ h1
    · exact nameDoc_some e _ h2
    · exact timeDoc_some e _ h3
    · exact orNull_some _ _ (fun t ht => timeDoc_some e t (h4 t ht))
    · refine array_some _ _ (fun r hr' => object_some _ (fun z hz => ?_))
      simp only [List.mem_cons, List.not_mem_nil, or_false] at hz
      rcases hz with rfl | rfl | rfl
      · exact intDoc_some e hr _
      · exact timeDoc_some e _ (h5 r hr').1
      · exact extsDoc_some e hr ha _ (h5 r hr').2
    · exact extsDoc_some e hr ha _ h6
  · exact text_some e _ h7
  · exact bytesDoc_some e hr _ h8

/-! ### C143: certificates -/

/-- A usual environment. -/
def exEnv : Env := ⟨fun _ => true, fun s => s.all (fun b => decide (b.toNat < 128)), fun _ => lit "192.0.2.0", fun _ => lit "2001:db8::"⟩

theorem exEnv_ok : exEnv.Plenty ∧ exEnv.Addresses ∧ exEnv.Reads ∧ exEnv.AsciiAddresses := by
  refine ⟨fun _ => rfl, ⟨fun _ _ => by show (lit "192.0.2.0").length ≤ 15; decide, fun _ _ => by show (lit "2001:db8::").length ≤ 45; decide⟩,
    fun s h => ?_, ⟨fun _ => ?_, fun _ => ?_⟩⟩
  · show s.all _ = true
    rw [List.all_eq_true]
    intro b hb
    simpa using h b hb
  · show ∀ x ∈ lit "192.0.2.0", x.toNat < 128
    decide
  · show ∀ x ∈ lit "2001:db8::", x.toNat < 128
    decide

/-- Certificates like the RPKI's, with these extensions. -/
def exCert (l : List Ext) : Cert :=
  { version := 2, serial := 0x1234, sigName := lit "RSA-SHA256", issuer := [(lit "commonName", lit "ta")], notBefore := ⟨some (lit "2024-01-01 00:00:00Z")⟩,
    notAfter := ⟨some (lit "2025-01-01 00:00:00Z")⟩, subject := [(lit "commonName", lit "ca")], keyAlg := ⟨lit "rsaEncryption"⟩, key := some (lit "-----BEGIN PUBLIC KEY-----"),
    issuerUid := none, subjectUid := none, exts := l, sigAlg := ⟨lit "sha256WithRSAEncryption"⟩, sig := [1, 2, 3] }

/-- Certificate policies with a qualifier (a CPS URI, as RFC 7318 allows). -/
def exPolicy : Ext := ⟨⟨lit "X509v3 Certificate Policies"⟩, true, .cp [(⟨lit "1.3.6.1.5.5.7.14.2"⟩, some [⟨lit "Policy Qualifier CPS"⟩])]⟩

theorem exCert_readable (l : List Ext) (h : ExtsReadable exEnv l) : (exCert l).Readable exEnv := by
  refine ⟨by show exEnv.utf8 (lit "RSA-SHA256") = true; decide, ?_, ⟨_, rfl, by decide⟩, ⟨_, rfl, by decide⟩, ?_, by show exEnv.utf8 (lit "rsaEncryption") = true; decide, ⟨_, rfl, by decide⟩, by simp [exCert], by simp [exCert], h, by show exEnv.utf8 (lit "sha256WithRSAEncryption") = true; decide, by simp [exCert]⟩
  · show NameReadable exEnv [(lit "commonName", lit "ta")]
    intro x hx
    simp only [List.mem_cons, List.not_mem_nil, or_false] at hx
    subst hx
    decide
  · show NameReadable exEnv [(lit "commonName", lit "ca")]
    intro x hx
    simp only [List.mem_cons, List.not_mem_nil, or_false] at hx
    subst hx
    decide

theorem exPolicy_readable : ExtsReadable exEnv [exPolicy] := by
  intro x hx
  simp only [List.mem_cons, List.not_mem_nil, or_false] at hx
  subst hx
  refine ⟨by decide, ?_⟩
  show ∀ x ∈ [((⟨lit "1.3.6.1.5.5.7.14.2"⟩ : Oid), some [(⟨lit "Policy Qualifier CPS"⟩ : Oid)])], _
  intro x hx
  simp only [List.mem_cons, List.not_mem_nil, or_false] at hx
  subst hx
  refine ⟨by decide, ?_⟩
  intro q hq o ho
  injection hq with hq
  subst hq
  simp only [List.mem_cons, List.not_mem_nil, or_false] at ho
  subst ho
  decide

/-- The full claim: with memory, every certificate that can be shown is printed, and what's printed is what it says. -/
def PrintsCertificates : Prop :=
  ∀ e : Env, e.Plenty → e.Addresses → e.Reads → e.AsciiAddresses → ∀ c : Cert, c.Readable e → ∃ j, certDoc e c = some j ∧ Returns (x509ToJson c) e (some j)

/-- What a function that's run once returned. -/
def Out.value : Out → Option (Option J)
  | .ub => none
  | .ret j _ => some j

/-- What a function that's run once left allocated. -/
def Out.liveAfter : Out → Option Int
  | .ub => none
  | .ret _ s => some s.live

theorem out_none {o : Out} (h : o.value.map Option.isSome = some false) : ∃ s, o = .ret none s := by
  cases o with
  | ub => cases h
  | ret j s =>
    cases j with
    | none => exact ⟨s, rfl⟩
    | some j => simp [Out.value] at h

/-- False: certificates with policy qualifiers aren't printed. -/
theorem C143_refuted : ¬ PrintsCertificates := by
  intro h
  obtain ⟨h1, h2, h3, h4⟩ := exEnv_ok
  obtain ⟨j, _, s, hs⟩ := h exEnv h1 h2 h3 h4 (exCert [exPolicy]) (exCert_readable _ exPolicy_readable)
  obtain ⟨s', hs'⟩ := out_none (o := x509ToJson (exCert [exPolicy]) exEnv ⟨0, 0⟩) (by decide +kernel)
  rw [hs'] at hs
  cases hs

/-- An extension of RFC 8360. -/
def exAmended : Ext := ⟨⟨lit "id-pe-ipAddrBlocks-v2"⟩, true, .amended [0x30, 0x00]⟩

/-- Neither are RFC 8360's. -/
theorem C143_refuted_amended : ∃ c : Cert, c.Readable exEnv ∧ Returns (x509ToJson c) exEnv none := by
  refine ⟨exCert [exAmended], exCert_readable _ ?_, ?_⟩
  · intro x hx
    simp only [List.mem_cons, List.not_mem_nil, or_false] at hx
    subst hx
    exact ⟨by decide, by simp [exAmended, ExtVal.Readable]⟩
  · exact out_none (o := x509ToJson (exCert [exAmended]) exEnv ⟨0, 0⟩) (by decide +kernel)

/-- It's true of certificates without those, with prefixes that are prefixes, and with object identifiers of less than 64 characters. -/
theorem C143_partial (e : Env) (hp : e.Plenty) (ha : e.Addresses) (hr : e.Reads) (haa : e.AsciiAddresses) (c : Cert) (hread : c.Readable e) (h : c.Fine) :
    ∃ j, certDoc e c = some j ∧ Returns (x509ToJson c) e (some j) := by
  obtain ⟨j, hj⟩ := certDoc_some e hr haa c hread
  obtain ⟨r, s, h1, _, h3, _⟩ := prints_cert e ha c h ⟨0, 0⟩
  rw [h3 hp, hj] at h1
  exact ⟨j, hj, s, h1⟩

/-- Whatever happens to memory, and whether it can be shown or not: what's printed, if anything, is what the certificate says. -/
theorem C143_partial_faithful (e : Env) (ha : e.Addresses) (c : Cert) (h : c.Fine) (j : J) (hj : Returns (x509ToJson c) e (some j)) : certDoc e c = some j := by
  obtain ⟨s, hs⟩ := hj
  obtain ⟨r, s', h1, h2, _, _⟩ := prints_cert e ha c h ⟨0, 0⟩
  rw [hs] at h1
  injection h1 with h1 _
  exact h2 j h1.symm

/-- Extensions of an RPKI certificate. -/
def exExts : List Ext :=
  [⟨⟨lit "X509v3 Basic Constraints"⟩, true, .bc true none⟩, ⟨⟨lit "X509v3 Subject Key Identifier"⟩, false, .ski [0xAB, 0xCD]⟩,
   ⟨⟨lit "X509v3 Authority Key Identifier"⟩, false, .aki (some [1, 2]) false none⟩, ⟨⟨lit "X509v3 Key Usage"⟩, true, .ku [0x06]⟩,
   ⟨⟨lit "X509v3 CRL Distribution Points"⟩, false, .cdp [⟨some (.full [.uri (lit "rsync://a/b.crl")]), false, none⟩]⟩,
   ⟨⟨lit "Authority Information Access"⟩, false, .aia [(⟨lit "CA Issuers"⟩, .uri (lit "rsync://a/b.cer"))]⟩,
   ⟨⟨lit "X509v3 Certificate Policies"⟩, true, .cp [(⟨lit "1.3.6.1.5.5.7.14.2"⟩, none)]⟩,
   ⟨⟨lit "sbgp-ipAddrBlock"⟩, true, .ir [⟨[0, 1], .aors [.pfx ⟨[192, 0, 2], 0⟩, .range ⟨[10], 0⟩ ⟨[11], 0⟩]⟩, ⟨[0, 2], .inherit⟩]⟩,
   ⟨⟨lit "sbgp-autonomousSysNum"⟩, true, .ar (some (.aors [.id 65000, .range 1 5])) none⟩]

theorem exExts_fine : ExtsFine exExts := by
  intro x hx
  simp only [exExts, List.mem_cons, List.not_mem_nil, or_false] at hx
  rcases hx with rfl | rfl | rfl | rfl | rfl | rfl | rfl | rfl | rfl <;> refine ⟨by unfold Oid.Short; decide, ?_⟩
  · trivial
  · trivial
  · trivial
  · trivial
  · show ∀ d ∈ [_], _
    intro d hd n hn
    simp only [List.mem_cons, List.not_mem_nil, or_false] at hd
    subst hd
    injection hn with hn
    subst hn
    trivial
  · show ∀ d ∈ [_], _
    intro d hd
    simp only [List.mem_cons, List.not_mem_nil, or_false] at hd
    subst hd
    unfold Oid.Short
    decide
  · show ∀ d ∈ [_], _
    intro d hd
    simp only [List.mem_cons, List.not_mem_nil, or_false] at hd
    subst hd
    exact ⟨by unfold Oid.Short; decide, Or.inl rfl⟩
  · show ∀ f ∈ [_, _], _
    intro f hf
    simp only [List.mem_cons, List.not_mem_nil, or_false] at hf
    rcases hf with rfl | rfl
    · intro af l h1 h2 b hb
      injection h2 with h2
      subst h2
      simp only [List.mem_cons, List.not_mem_nil, or_false, reduceCtorEq, IpAor.pfx.injEq] at hb
      subst hb
      have : af = .v4 := by simpa [famOf] using h1.symm
      subst this
      decide
    · intro af l h1 h2
      cases h2
  · trivial

theorem exExts_readable : ExtsReadable exEnv exExts := by
  intro x hx
  simp only [exExts, List.mem_cons, List.not_mem_nil, or_false] at hx
  rcases hx with rfl | rfl | rfl | rfl | rfl | rfl | rfl | rfl | rfl <;> refine ⟨by decide, ?_⟩
  · trivial
  · simp [ExtVal.Readable]
  · simp [ExtVal.Readable]
  · simp [ExtVal.Readable]
  · show ∀ d ∈ [_], _
    intro d hd
    simp only [List.mem_cons, List.not_mem_nil, or_false] at hd
    subst hd
    refine ⟨?_, (fun i hi => by cases hi)⟩
    intro n hn
    injection hn with hn
    subst hn
    show ∀ g ∈ [_], _
    intro g hg
    simp only [List.mem_cons, List.not_mem_nil, or_false] at hg
    subst hg
    show exEnv.utf8 _ = true
    decide
  · show ∀ d ∈ [_], _
    intro d hd
    simp only [List.mem_cons, List.not_mem_nil, or_false] at hd
    subst hd
    refine ⟨by decide, ?_⟩
    show exEnv.utf8 _ = true
    decide
  · show ∀ d ∈ [_], _
    intro d hd
    simp only [List.mem_cons, List.not_mem_nil, or_false] at hd
    subst hd
    exact ⟨by decide, (fun q hq => by cases hq)⟩
  · show ∀ f ∈ [_, _], _
    intro f hf
    simp only [List.mem_cons, List.not_mem_nil, or_false] at hf
    rcases hf with rfl | rfl
    · refine ⟨.v4, rfl, ?_⟩
      intro l h2 b hb
      injection h2 with h2
      subst h2
      simp only [List.mem_cons, List.not_mem_nil, or_false, reduceCtorEq, IpAor.pfx.injEq] at hb
      subst hb
      decide
    · refine ⟨.v6, rfl, ?_⟩
      intro l h2
      cases h2
  · trivial

theorem exCert_fine : (exCert exExts).Fine := ⟨by unfold Oid.Short; decide, by unfold Oid.Short; decide, exExts_fine⟩

example : (exCert exExts).Readable exEnv ∧ (exCert exExts).Fine ∧ ∃ j, Returns (x509ToJson (exCert exExts)) exEnv (some j) := by
  obtain ⟨h1, h2, h3, h4⟩ := exEnv_ok
  have hr := exCert_readable _ exExts_readable
  obtain ⟨j, _, hj⟩ := C143_partial exEnv h1 h2 h3 h4 _ hr exCert_fine
  exact ⟨hr, exCert_fine, j, hj⟩

/-! ### C144: CRLs -/

/-- The full claim, for CRLs. -/
def PrintsCrls : Prop :=
  ∀ e : Env, e.Plenty → e.Addresses → e.Reads → e.AsciiAddresses → ∀ c : Crl, c.Readable e → ∃ j, crlDoc e c = some j ∧ Returns (crl2json c) e (some j)

/-- A CRL. -/
def exCrl (r : List Revoked) (l : List Ext) : Crl :=
  { version := 1, sigName := lit "RSA-SHA256", issuer := [(lit "commonName", lit "ca")], lastUpdate := ⟨some (lit "2024-01-01 00:00:00Z")⟩,
    nextUpdate := some ⟨some (lit "2024-01-02 00:00:00Z")⟩, revoked := r, exts := l, sigAlg := ⟨lit "sha256WithRSAEncryption"⟩, sig := [1, 2, 3] }

/-- An extension whose object identifier is long (70 characters). -/
def exLong : Ext := ⟨⟨lit "1.3.6.1.4.1.99999.11111111.22222222.33333333.44444444.55555555.66666666"⟩, false, .unknown [5, 0]⟩

theorem exCrl_readable (r : List Revoked) (l : List Ext) (hr : ∀ x ∈ r, x.date.Readable exEnv ∧ ExtsReadable exEnv x.exts) (hl : ExtsReadable exEnv l) : (exCrl r l).Readable exEnv := by
  refine ⟨by show exEnv.utf8 (lit "RSA-SHA256") = true; decide, ?_, ⟨_, rfl, by decide⟩, ?_, hr, hl, by show exEnv.utf8 (lit "sha256WithRSAEncryption") = true; decide, by simp [exCrl]⟩
  · show NameReadable exEnv [(lit "commonName", lit "ca")]
    intro x hx
    simp only [List.mem_cons, List.not_mem_nil, or_false] at hx
    subst hx
    decide
  · intro t ht
    injection ht with ht
    subst ht
    exact ⟨_, rfl, by decide⟩

/-- False: object identifiers with long texts are not shown; the buffer is read past its end. -/
theorem C144_refuted : ¬ PrintsCrls := by
  intro h
  obtain ⟨h1, h2, h3, h4⟩ := exEnv_ok
  obtain ⟨j, _, s, hs⟩ := h exEnv h1 h2 h3 h4 (exCrl [] [exLong]) (exCrl_readable _ _ (by simp) (by
    intro x hx
    simp only [List.mem_cons, List.not_mem_nil, or_false] at hx
    subst hx
    exact ⟨by decide, by simp [exLong, ExtVal.Readable]⟩))
  have : (crl2json (exCrl [] [exLong]) exEnv ⟨0, 0⟩).value.isNone = true := by decide +kernel
  rw [hs] at this
  cases this

/-- It's true of CRLs whose extensions print mode gets right. -/
theorem C144_partial (e : Env) (hp : e.Plenty) (ha : e.Addresses) (hr : e.Reads) (haa : e.AsciiAddresses) (c : Crl) (hread : c.Readable e) (h : c.Fine) :
    ∃ j, crlDoc e c = some j ∧ Returns (crl2json c) e (some j) := by
  obtain ⟨j, hj⟩ := crlDoc_some e hr haa c hread
  obtain ⟨r, s, h1, _, h3, _⟩ := prints_crl e ha c h ⟨0, 0⟩
  rw [h3 hp, hj] at h1
  exact ⟨j, hj, s, h1⟩

theorem C144_partial_faithful (e : Env) (ha : e.Addresses) (c : Crl) (h : c.Fine) (j : J) (hj : Returns (crl2json c) e (some j)) : crlDoc e c = some j := by
  obtain ⟨s, hs⟩ := hj
  obtain ⟨r, s', h1, h2, _, _⟩ := prints_crl e ha c h ⟨0, 0⟩
  rw [hs] at h1
  injection h1 with h1 _
  exact h2 j h1.symm

/-- Two revoked certificates. -/
def exRevoked : List Revoked := [⟨5, ⟨some (lit "2024-01-01 00:00:00Z")⟩, []⟩, ⟨6, ⟨some (lit "2024-01-01 00:00:00Z")⟩, []⟩]

theorem exCrl_ok : (exCrl exRevoked [⟨⟨lit "X509v3 CRL Number"⟩, false, .cn 7⟩]).Readable exEnv ∧ (exCrl exRevoked [⟨⟨lit "X509v3 CRL Number"⟩, false, .cn 7⟩]).Fine := by
  refine ⟨exCrl_readable _ _ ?_ ?_, by unfold Oid.Short; decide, ?_, ?_⟩
  · intro x hx
    simp only [exRevoked, List.mem_cons, List.not_mem_nil, or_false] at hx
    rcases hx with rfl | rfl <;> exact ⟨⟨_, rfl, by decide⟩, (fun x hx => by cases hx)⟩
  · intro x hx
    simp only [List.mem_cons, List.not_mem_nil, or_false] at hx
    subst hx
    exact ⟨by decide, trivial⟩
  · intro x hx
    simp only [exCrl, List.mem_cons, List.not_mem_nil, or_false] at hx
    subst hx
    exact ⟨by unfold Oid.Short; decide, trivial⟩
  · intro x hx
    simp only [exCrl, exRevoked, List.mem_cons, List.not_mem_nil, or_false] at hx
    rcases hx with rfl | rfl <;> exact (fun x hx => by cases hx)

example : ∃ j, Returns (crl2json (exCrl exRevoked [⟨⟨lit "X509v3 CRL Number"⟩, false, .cn 7⟩])) exEnv (some j) := by
  obtain ⟨h1, h2, h3, h4⟩ := exEnv_ok
  obtain ⟨j, _, hj⟩ := C144_partial exEnv h1 h2 h3 h4 _ exCrl_ok.1 exCrl_ok.2
  exact ⟨j, hj⟩

end Verif.Print
