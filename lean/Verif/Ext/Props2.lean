import Verif.Ext.Props
/-
Key usage, access descriptions, references, and the absence of crashes.
-/
namespace Verif.Ext
open Verif.Res (Byte)
open Verif.Uri (Uri UriType uriCreate R Err Printable)

/-- **C63.** Whatever the bit string, it's accepted as the key usage of a CA if and only if it has one or two bytes, where keyCertSign and cRLSign are the only bits that are set; and for an EE, if and only if
digitalSignature is the only one. Bits are numbered from the most significant one of the first byte: digitalSignature is 0, keyCertSign is 5, cRLSign is 6, and there's a ninth. -/
theorem C63 (d : List Byte) (s : St) :
    (handleKu 0x06#8 (.ku d) s = .ok s ↔ (d.length = 1 ∨ d.length = 2) ∧ ∀ i, (∃ b, d[i / 8]? = some b ∧ b.getMsbD (i % 8) = true) ↔ i = 5 ∨ i = 6) ∧
    (handleKu 0x80#8 (.ku d) s = .ok s ↔ (d.length = 1 ∨ d.length = 2) ∧ ∀ i, (∃ b, d[i / 8]? = some b ∧ b.getMsbD (i % 8) = true) ↔ i = 0) := by
  have bits : ∀ (b1 : Byte) (P : Nat → Prop), (∀ b : Byte, b = b1 ↔ ∀ i < 8, b.getMsbD i = true ↔ P i) → (∀ i, 8 ≤ i → ¬ P i) →
      (handleKu b1 (.ku d) s = .ok s ↔ (d.length = 1 ∨ d.length = 2) ∧ ∀ i, (∃ b, d[i / 8]? = some b ∧ b.getMsbD (i % 8) = true) ↔ P i) := by
    intro b1 P hb hP
    have zero : ∀ b : Byte, b = 0#8 ↔ ∀ i < 8, b.getMsbD i = false := by decide +kernel
    rw [ku_iff]
    simp only [and_true, Val.ku.injEq]
    match d with
    | [] => simp
    | [a] =>
      simp only [List.cons.injEq, and_true, reduceCtorEq, and_false, or_false, List.length_singleton, true_or, true_and]
      rw [hb a]
      constructor
      · intro h i
        by_cases hi : i < 8
        · have : i / 8 = 0 := by omega
          rw [this, Nat.mod_eq_of_lt hi, ← h i hi]
          simp
        · have hn : [a][i / 8]? = none := by
            rw [List.getElem?_eq_none_iff]
            simp only [List.length_singleton]
            omega
          rw [hn]
          simp [hP i (by omega)]
      · intro h i hi
        rw [← h i, show i / 8 = 0 by omega, Nat.mod_eq_of_lt hi]
        simp
    | [a, b] =>
      simp only [List.cons.injEq, and_true, reduceCtorEq, and_false, false_or, List.length_cons, List.length_nil, Nat.reduceAdd, Nat.reduceEqDiff, or_true, true_and]
      rw [hb a, zero b]
      constructor
      · rintro ⟨h, h2⟩ i
        by_cases hi : i < 8
        · have : i / 8 = 0 := by omega
          rw [this, Nat.mod_eq_of_lt hi, ← h i hi]
          simp
        · by_cases hi2 : i < 16
          · rw [show i / 8 = 1 by omega]
            have h3 := h2 (i % 8) (by omega)
            constructor
            · rintro ⟨c, hc, hcb⟩
              injection hc with hc
              subst hc
              rw [h3] at hcb
              cases hcb
            · intro hp
              exact absurd hp (hP i (by omega))
          · have hn : [a, b][i / 8]? = none := by
              rw [List.getElem?_eq_none_iff]
              simp only [List.length_cons, List.length_nil]
              omega
            rw [hn]
            simp [hP i (by omega)]
      · intro h
        refine ⟨fun i hi => ?_, fun i hi => ?_⟩
        · rw [← h i, show i / 8 = 0 by omega, Nat.mod_eq_of_lt hi]
          simp
        · have h3 := h (8 + i)
          rw [show (8 + i) / 8 = 1 by omega, show (8 + i) % 8 = i by omega] at h3
          cases hc : b.getMsbD i with
          | false => rfl
          | true => exact absurd (h3.1 ⟨b, rfl, hc⟩) (hP _ (by omega))
    | _ :: _ :: _ :: _ => simp
  refine ⟨bits _ _ ?_ (by omega), bits _ _ ?_ (by omega)⟩ <;> decide +kernel

/-- **C62.** Whatever the access descriptions, those of a method are accepted if and only if each of them either isn't a URL of the expected type or is one that can be used, no more than one can be
used, and one of them can if it's required. The result is that one. -/
theorem C62 (env : Env) (m : Method) (type : UriType) (required : Bool) (ads : List Ad) (r : Option Uri) :
    handleAd env m type required ads = .ok r ↔ Picked env m type ads r ∧ (required = true → r ≠ none) :=
  ad_iff env m type required ads r

/-- **C62.** What "can be used" means: the URL is printable, it has the type's scheme, and the file it's mapped to is in the TAL's directory. -/
theorem C62_usable (env : Env) (hr : env.repo ≠ []) (ht : env.tal ≠ []) (hts : Uri.slash ∉ env.tal) (type : UriType) (hty : type ≠ .caged) (ad : Ad) (u : Uri) (h : Usable env type ad u) :
    ∃ b, ad.location = .uri b u.global ∧ u.type = type ∧ Printable u.global ∧ type.prefix <+: u.global ∧
      ∃ cs, u.loc = Uri.pathOf env.repo ([env.tal, type.dir] ++ cs) ∧ ∀ c ∈ cs, Uri.Proper c := by
  obtain ⟨b, text, h1, h2⟩ := h
  obtain ⟨cs, -, h3, h4⟩ := Uri.C37_confined hr ht hts type none (fun h => absurd h hty) text u h2
  rcases Uri.C37_mapping hr ht type none (fun h => absurd h hty) text with ⟨l, g1, g2, g3⟩ | ⟨e, -, g3, -⟩ | ⟨-, g3⟩
  · rw [g3] at h2
    injection h2 with h2
    subst h2
    refine ⟨b, h1, rfl, g1, ?_, cs, h3, h4⟩
    have hs : Uri.specSimple env.repo env.tal type text = some l := by
      cases type with
      | rsync => exact g2
      | https => exact g2
      | caged => exact absurd rfl hty
    unfold Uri.specSimple at hs
    by_cases hp : type.prefix <+: text
    · exact hp
    · rw [if_neg hp] at hs
      cases hs
  · rw [g3] at h2
    cases h2
  · rw [g3] at h2
    cases h2

theorem no_crash (env : Env) (hr : env.repo ≠ []) (ht : env.tal ≠ []) (type : UriType) (hty : type ≠ .caged) (text : List Byte) :
    uriCreate env.repo (some env.tal) type none text ≠ .crash := by
  rcases Uri.C37_mapping hr ht type none (fun h => absurd h hty) text with ⟨l, g1, g2, g3⟩ | ⟨e, -, g3, -⟩ | ⟨-, g3⟩ <;> rw [g3] <;> intro h <;> cases h

theorem pure_not_ub {env : Env} (hr : env.repo ≠ []) (ht : env.tal ≠ []) (v : Val) (s : St) :
    (∀ p, v = .bc p → handleBc v s ≠ .ub) ∧ (∀ id, v = .ski id → handleSkiCa env v s ≠ .ub) ∧ (∀ sid id, v = .ski id → handleSkiEe env sid v s ≠ .ub) ∧
    (∀ exts k i n, v = .aki k i n → handleAkiTa exts v s ≠ .ub) ∧ (∀ k i n, v = .aki k i n → handleAki env v s ≠ .ub) ∧ (∀ b d, v = .ku d → handleKu b v s ≠ .ub) ∧
    (∀ p, v = .cdp p → handleCdp v s ≠ .ub) ∧ (∀ a, v = .info a → handleAia env v s ≠ .ub ∧ handleSiaCa env v s ≠ .ub ∧ handleSiaEe env v s ≠ .ub) ∧
    (∀ p, v = .cp p → handleCp v s ≠ .ub) := by
  have hr' := fun m req ads => ad_not_ub env m .rsync (no_crash env hr ht .rsync (by decide)) req ads
  have hh' := fun m req ads => ad_not_ub env m .https (no_crash env hr ht .https (by decide)) req ads
  refine ⟨?_, ?_, ?_, ?_, ?_, ?_, ?_, ?_, ?_⟩
  · rintro p rfl
    cases p <;> simp [handleBc]
  · rintro id rfl
    unfold handleSkiCa
    simp only
    by_cases h : validatePublicKeyHash env env.spk id = true
    · rw [if_pos h]; intro h; cases h
    · rw [if_neg h]; intro h; cases h
  · rintro sid id rfl
    unfold handleSkiEe
    simp only
    by_cases h : validatePublicKeyHash env env.spk id = false
    · rw [if_pos h]; intro h; cases h
    · rw [if_neg h]
      by_cases h2 : id.length ≠ sid.length ∨ id.take sid.length ≠ sid.take sid.length
      · rw [if_pos h2]; intro h; cases h
      · rw [if_neg h2]; intro h; cases h
  · rintro exts k i n rfl
    cases k with
    | none => simp [handleAkiTa]
    | some k =>
      unfold handleAkiTa
      simp only
      cases h : getSki exts with
      | none => intro h; cases h
      | some x =>
        simp only
        by_cases h2 : k = x
        · rw [if_pos h2]; intro h; cases h
        · rw [if_neg h2]; intro h; cases h
  · rintro k i n rfl
    cases k with
    | none => simp [handleAki]
    | some k =>
      unfold handleAki
      cases i with
      | true => simp
      | false =>
        cases n with
        | true => simp
        | false =>
          simp only [Bool.false_eq_true, if_false]
          cases h : env.parent with
          | none => intro h; cases h
          | some spk =>
            simp only
            by_cases h2 : validatePublicKeyHash env spk k = true
            · rw [if_pos h2]; intro h; cases h
            · rw [if_neg h2]; intro h; cases h
  · rintro b d rfl
    unfold handleKu
    simp only
    by_cases h : d.length ≠ 2 ∧ d.length ≠ 1
    · rw [if_pos h]; intro h; cases h
    · rw [if_neg h]
      by_cases h2 : (d ++ List.replicate (2 - d.length) 0#8).getD 0 0#8 ≠ b ∨ (d ++ List.replicate (2 - d.length) 0#8).getD 1 0#8 ≠ 0#8
      · rw [if_pos h2]; intro h; cases h
      · rw [if_neg h2]; intro h; cases h
  · rintro p rfl
    have loop : ∀ names, cdpLoop s names ≠ .ub := by
      intro names
      induction names with
      | nil => intro h; cases h
      | cons n names ih =>
        cases n with
        | other => exact ih
        | uri b t =>
          rw [cdpLoop]
          by_cases h : isRsync t = true
          · rw [if_pos h]
            cases b <;> (intro h; cases h)
          · rw [if_neg h]
            exact ih
    unfold handleCdp
    match p with
    | [] => intro h; cases h
    | _ :: _ :: _ => intro h; cases h
    | [⟨ci, re, dp⟩] =>
      cases ci with
      | true => intro h; cases h
      | false =>
        cases re with
        | true => intro h; cases h
        | false =>
          match dp with
          | none => intro h; cases h
          | some .relative => intro h; cases h
          | some .unknown => intro h; cases h
          | some (.full names) => exact loop names
  · rintro a rfl
    refine ⟨?_, ?_, ?_⟩
    · unfold handleAia
      simp only
      have := hr' .caIssuers true a
      cases h : handleAd env .caIssuers .rsync true a with
      | ok _ => intro h; cases h
      | fail _ => intro h; cases h
      | ub => exact absurd h this
    · unfold handleSiaCa
      simp only
      have h1 := hr' .caRepository false a
      have h2 := hh' .notify false a
      have h3 := hr' .manifest true a
      cases g1 : handleAd env .caRepository .rsync false a with
      | fail _ => intro h; cases h
      | ub => exact absurd g1 h1
      | ok _ =>
        simp only
        cases g2 : handleAd env .notify .https false a with
        | fail _ => intro h; cases h
        | ub => exact absurd g2 h2
        | ok _ =>
          simp only
          cases g3 : handleAd env .manifest .rsync true a with
          | fail _ => intro h; cases h
          | ub => exact absurd g3 h3
          | ok _ => intro h; cases h
    · unfold handleSiaEe
      simp only
      have := hr' .signedObject true a
      cases h : handleAd env .signedObject .rsync true a with
      | ok _ => intro h; cases h
      | fail _ => intro h; cases h
      | ub => exact absurd h this
  · rintro p rfl
    unfold handleCp
    match p with
    | [] => intro h; cases h
    | _ :: _ :: _ => intro h; cases h
    | [⟨id, q⟩] =>
      cases id with
      | none => intro h; cases h
      | some p =>
        match q with
        | none => intro h; cases h
        | some [] => intro h; cases h
        | some [true] => intro h; cases h
        | some [false] => intro h; cases h
        | some (_ :: _ :: _) => intro h; cases h

/-- **C61 (no crash).** Whatever the extensions of a certificate, validating them doesn't end the process, and no handler is given an extension of another type. -/
theorem C61_defined (env : Env) (hr : env.repo ≠ []) (ht : env.tal ≠ []) (sid crl : List Byte) (exts : List (Ext Val)) (hw : ∀ e ∈ exts, WellTyped e) :
    validateTa env exts ≠ .ub ∧ validateCa env exts (some crl) ≠ .ub ∧ validateEe env sid exts ≠ .ub := by
  have typed : ∀ e ∈ exts, ∀ v, e.value = some v → ∀ n, e.nid = n → match n with
      | .bc => ∃ p, v = .bc p
      | .ski => ∃ id, v = .ski id
      | .aki => ∃ k i s, v = .aki k i s
      | .ku => ∃ d, v = .ku d
      | .cdp => ∃ p, v = .cdp p
      | .aia => ∃ a, v = .info a
      | .sia => ∃ a, v = .info a
      | .cp => ∃ p, v = .cp p
      | _ => True := by
    intro e he v hv n hn
    have h := hw e he
    unfold WellTyped at h
    rw [hv] at h
    simp only at h
    subst hn
    exact h
  refine ⟨?_, ?_, ?_⟩
  · apply handleExtensions_not_ub
    intro e he h hh hne cb v hcb hv s
    obtain ⟨p1, p2, p3, p4, p5, p6, p7, p8, p9⟩ := pure_not_ub hr ht v s
    have ty := typed e he v hv
    simp only [taTable, resourceRows, List.cons_append, List.nil_append, List.mem_cons, List.not_mem_nil, or_false] at hh
    rcases hh with rfl | rfl | rfl | rfl | rfl | rfl | rfl | rfl | rfl | rfl <;> simp only [Option.some.injEq, reduceCtorEq] at hcb <;> subst hcb
    · obtain ⟨p, hp⟩ := ty .bc hne.symm; exact p1 p hp
    · obtain ⟨p, hp⟩ := ty .ski hne.symm; exact p2 p hp
    · obtain ⟨p, q, r, hp⟩ := ty .aki hne.symm; exact p4 _ p q r hp
    · obtain ⟨p, hp⟩ := ty .ku hne.symm; exact p6 _ p hp
    · obtain ⟨p, hp⟩ := ty .sia hne.symm; exact (p8 p hp).2.1
    · obtain ⟨p, hp⟩ := ty .cp hne.symm; exact p9 p hp
  · unfold validateCa
    have hne : handleExtensions (caTable env) exts St.init ≠ .ub := by
      apply handleExtensions_not_ub
      intro e he h hh hne cb v hcb hv s
      obtain ⟨p1, p2, p3, p4, p5, p6, p7, p8, p9⟩ := pure_not_ub hr ht v s
      have ty := typed e he v hv
      simp only [caTable, resourceRows, List.cons_append, List.nil_append, List.mem_cons, List.not_mem_nil, or_false] at hh
      rcases hh with rfl | rfl | rfl | rfl | rfl | rfl | rfl | rfl | rfl | rfl | rfl | rfl <;> simp only [Option.some.injEq, reduceCtorEq] at hcb <;> subst hcb
      · obtain ⟨p, hp⟩ := ty .bc hne.symm; exact p1 p hp
      · obtain ⟨p, hp⟩ := ty .ski hne.symm; exact p2 p hp
      · obtain ⟨p, q, r, hp⟩ := ty .aki hne.symm; exact p5 p q r hp
      · obtain ⟨p, hp⟩ := ty .ku hne.symm; exact p6 _ p hp
      · obtain ⟨p, hp⟩ := ty .cdp hne.symm; exact p7 p hp
      · obtain ⟨p, hp⟩ := ty .aia hne.symm; exact (p8 p hp).1
      · obtain ⟨p, hp⟩ := ty .sia hne.symm; exact (p8 p hp).2.1
      · obtain ⟨p, hp⟩ := ty .cp hne.symm; exact p9 p hp
    cases h : handleExtensions (caTable env) exts St.init with
    | ub => exact absurd h hne
    | fail e => intro h; cases h
    | ok s =>
      have hs := (ca_table env exts s).1 h
      obtain ⟨text, hc, -⟩ := hs.crl
      simp only [refsValidateCa, validateCdp, hc]
      by_cases he : cstr text = cstr crl
      · rw [if_pos he]
        simp [hs.none]
      · rw [if_neg he]
        intro h; cases h
  · apply handleExtensions_not_ub
    intro e he h hh hne cb v hcb hv s
    obtain ⟨p1, p2, p3, p4, p5, p6, p7, p8, p9⟩ := pure_not_ub hr ht v s
    have ty := typed e he v hv
    simp only [eeTable, resourceRows, List.cons_append, List.nil_append, List.mem_cons, List.not_mem_nil, or_false] at hh
    rcases hh with rfl | rfl | rfl | rfl | rfl | rfl | rfl | rfl | rfl | rfl | rfl <;> simp only [Option.some.injEq, reduceCtorEq] at hcb <;> subst hcb
    · obtain ⟨p, hp⟩ := ty .ski hne.symm; exact p3 _ p hp
    · obtain ⟨p, q, r, hp⟩ := ty .aki hne.symm; exact p5 p q r hp
    · obtain ⟨p, hp⟩ := ty .ku hne.symm; exact p6 _ p hp
    · obtain ⟨p, hp⟩ := ty .cdp hne.symm; exact p7 p hp
    · obtain ⟨p, hp⟩ := ty .aia hne.symm; exact (p8 p hp).1
    · obtain ⟨p, hp⟩ := ty .sia hne.symm; exact (p8 p hp).2.2
    · obtain ⟨p, hp⟩ := ty .cp hne.symm; exact p9 p hp

theorem cstr_id {l : List Byte} (h : 0#8 ∉ l) : cstr l = l := by
  unfold cstr
  induction l with
  | nil => rfl
  | cons b l ih =>
    rw [List.takeWhile_cons_of_pos, ih (fun hm => h (List.mem_cons_of_mem _ hm))]
    simp only [ne_eq, decide_eq_true_eq]
    rintro rfl
    exact h List.mem_cons_self

/-- **C100 (partial).** The distribution point of an accepted CA certificate is the URL of the parent's CRL, up to its first NUL; likewise for an EE certificate once its references were validated,
whose signedObject is the URL of the object. (URLs of files have no NULs.) -/
theorem C100_partial (env : Env) (hr : env.repo ≠ []) (ht : env.tal ≠ []) (hts : Uri.slash ∉ env.tal) (sid crl uri : List Byte) (hcrl : 0#8 ∉ crl) (huri : 0#8 ∉ uri) (exts : List (Ext Val)) (out : St) :
    (validateCa env exts (some crl) = .ok out → ∃ names text, Has exts .cdp (.cdp [⟨false, false, some (.full names)⟩]) ∧ FirstRsync names text ∧ cstr text = crl ∧
      (0#8 ∉ text → text = crl)) ∧
    (validateEe env sid exts = .ok out →
      refsValidateEe out (some crl) uri ≠ .ub ∧
      (refsValidateEe out (some crl) uri = .ok out → ∃ names text ads so, Has exts .cdp (.cdp [⟨false, false, some (.full names)⟩]) ∧ FirstRsync names text ∧ cstr text = crl ∧
        (0#8 ∉ text → text = crl) ∧ Has exts .sia (.info ads) ∧ Picked env .signedObject .rsync ads (some so) ∧ so.global = uri)) := by
  refine ⟨fun h => ?_, fun h => ?_⟩
  · have hs := (C61_ca env exts crl out).1 h
    obtain ⟨names, text, h1, h2, h3⟩ := hs.cdp
    obtain ⟨text', g1, g2⟩ := hs.crl
    rw [h3] at g1
    injection g1 with g1
    subst g1
    rw [cstr_id hcrl] at g2
    exact ⟨names, text, h1, h2, g2, fun hn => by rw [← g2, cstr_id hn]⟩
  · have hs := (C61_ee env sid exts out).1 h
    obtain ⟨names, text, h1, h2, h3⟩ := hs.cdp
    obtain ⟨ads, so, k1, k2, k3⟩ := hs.sia
    simp only [refsValidateEe, validateCdp, h3]
    by_cases he : cstr text = cstr crl
    · rw [if_pos he]
      simp only [k3]
      rw [cstr_id hcrl] at he
      by_cases hso : cstr so.global = cstr uri
      · rw [if_pos hso]
        refine ⟨(fun h => by cases h), fun _ => ⟨names, text, ads, so, h1, h2, he, fun hn => by rw [← he, cstr_id hn], k1, k2, ?_⟩⟩
        have hso' := hso
        rw [cstr_id huri] at hso'
        obtain ⟨pre, ad, post, -, -, hus, -⟩ := k2
        obtain ⟨b, -, -, hpr, -⟩ := C62_usable env hr ht hts .rsync (by decide) ad so hus
        rw [cstr_id] at hso'
        · exact hso'
        · intro h0
          have := (hpr _ h0).1
          revert this
          decide
      · rw [if_neg hso]
        exact ⟨(fun h => by cases h), (fun h => by cases h)⟩
    · rw [if_neg he]
      exact ⟨(fun h => by cases h), (fun h => by cases h)⟩

/-- **C101.** The type of a certificate file: the one that has no parent is a trust anchor; the others are CAs if libcrypto says that they are (a version 3 certificate with the CA bit), else router certificates if they have
that key purpose; there's no other type. -/
theorem C101 (isTa : Bool) (purpose ca : Int) (eku : Option (List Bool)) (t : CertType) : getCertificateType isTa purpose ca eku = some t ↔
    (isTa = true ∧ t = .ta) ∨ (isTa = false ∧ 0 < purpose ∧ ca = 1 ∧ t = .ca) ∨
    (isTa = false ∧ 0 < purpose ∧ ca ≠ 1 ∧ (∃ l, eku = some l ∧ true ∈ l) ∧ t = .bgpsec) := by
  unfold getCertificateType
  cases isTa with
  | true => simp [eq_comm]
  | false =>
    simp only [Bool.false_eq_true, if_false, false_and, false_or, true_and]
    by_cases hp : purpose ≤ 0
    · rw [if_pos hp]
      have : ¬ 0 < purpose := by omega
      simp [this]
    · rw [if_neg hp]
      have hp' : 0 < purpose := by omega
      by_cases hc : ca = 1
      · rw [if_pos hc]
        simp [hp', hc, eq_comm]
      · rw [if_neg hc]
        have he : hasBgpsecRouterEku eku = true ↔ ∃ l, eku = some l ∧ true ∈ l := by
          unfold hasBgpsecRouterEku
          cases eku with
          | none => simp
          | some l => simp
        by_cases h : hasBgpsecRouterEku eku = true
        · rw [if_pos h]
          have h2 := he.1 h
          simp only [hp', hc, h2, true_and, false_and, ne_eq, not_false_eq_true, false_or, Option.some.injEq]
          exact eq_comm
        · rw [if_neg h]
          have h2 : ¬ ∃ l, eku = some l ∧ true ∈ l := fun hx => h (he.2 hx)
          simp only [hp', hc, h2, true_and, false_and, ne_eq, not_false_eq_true, false_or]
          constructor
          · intro h; cases h
          · exact fun h => h.elim

namespace Demo

/-- "rsync://a/b" and so on -/
def rsyncUrl (c : Byte) : List Byte := Uri.rsyncPrefix ++ [97#8, 47#8, c]
def httpsUrl (c : Byte) : List Byte := Uri.httpsPrefix ++ [97#8, 47#8, c]

def env : Env := ⟨[47#8, 116#8], [116#8], fun k => some k, some [1#8, 2#8], some (some [3#8, 4#8])⟩

/-- The URL's text and where it's mapped to. -/
def uri (t : UriType) (g : List Byte) : Uri := ⟨g, [47#8, 116#8, 47#8, 116#8, 47#8] ++ g.take 5 ++ [47#8] ++ g.drop 8, t⟩

def sia : List Ad := [⟨.other 3, .other⟩, ⟨.manifest, .uri false (httpsUrl 109#8)⟩, ⟨.manifest, .uri false (rsyncUrl 109#8)⟩, ⟨.caRepository, .uri false (rsyncUrl 114#8)⟩,
  ⟨.notify, .uri false (httpsUrl 110#8)⟩]

def caExts (crldp : List Byte) : List (Ext Val) :=
  [⟨.other 7, false, none⟩, ⟨.cp, true, some (.cp [⟨some .rfc6484, some [true]⟩])⟩, ⟨.bc, true, some (.bc false)⟩, ⟨.ski, false, some (.ski [1#8, 2#8])⟩,
   ⟨.aki, false, some (.aki (some [3#8, 4#8]) false false)⟩, ⟨.ku, true, some (.ku [6#8])⟩,
   ⟨.cdp, false, some (.cdp [⟨false, false, some (.full [.other, .uri false (httpsUrl 99#8), .uri false crldp])⟩])⟩,
   ⟨.aia, false, some (.info [⟨.caIssuers, .uri false (rsyncUrl 105#8)⟩])⟩, ⟨.sia, false, some (.info sia)⟩, ⟨.ir, true, some .resources⟩, ⟨.other 7, false, none⟩]

def caOut (crldp : List Byte) : St := ⟨[uri .rsync (rsyncUrl 114#8), uri .https (httpsUrl 110#8)], some (uri .rsync (rsyncUrl 109#8)), some crldp, some (uri .rsync (rsyncUrl 105#8)), none, some .rfc6484⟩

theorem ca_ok : validateCa env (caExts (rsyncUrl 99#8)) (some (rsyncUrl 99#8)) = .ok (caOut (rsyncUrl 99#8)) := by decide +kernel

theorem ca_nul : validateCa env (caExts (rsyncUrl 99#8 ++ [0#8, 120#8])) (some (rsyncUrl 99#8)) = .ok (caOut (rsyncUrl 99#8 ++ [0#8, 120#8])) := by decide +kernel

def eeExts : List (Ext Val) :=
  [⟨.ski, false, some (.ski [1#8, 2#8])⟩, ⟨.aki, false, some (.aki (some [3#8, 4#8]) false false)⟩, ⟨.ku, true, some (.ku [0x80#8, 0#8])⟩,
   ⟨.cdp, false, some (.cdp [⟨false, false, some (.full [.uri false (rsyncUrl 99#8)])⟩])⟩, ⟨.aia, false, some (.info [⟨.caIssuers, .uri false (rsyncUrl 105#8)⟩])⟩,
   ⟨.sia, false, some (.info [⟨.signedObject, .uri false (rsyncUrl 115#8)⟩])⟩, ⟨.cp, true, some (.cp [⟨some .rfc8360, none⟩])⟩]

theorem ee_ok : validateEe env [1#8, 2#8] eeExts = .ok ⟨[], none, some (rsyncUrl 99#8), some (uri .rsync (rsyncUrl 105#8)), some (uri .rsync (rsyncUrl 115#8)), some .rfc8360⟩ := by decide +kernel

def taExts : List (Ext Val) :=
  [⟨.bc, true, some (.bc false)⟩, ⟨.aki, false, some (.aki (some [1#8, 2#8]) true false)⟩, ⟨.ski, false, some (.ski [1#8, 2#8])⟩, ⟨.ku, true, some (.ku [6#8, 0#8])⟩, ⟨.sia, false, some (.info sia)⟩,
   ⟨.cp, true, some (.cp [⟨some .rfc6484, some []⟩])⟩, ⟨.ir, true, some .resources⟩]

theorem ta_ok : validateTa env taExts = .ok ⟨[uri .rsync (rsyncUrl 114#8), uri .https (httpsUrl 110#8)], some (uri .rsync (rsyncUrl 109#8)), none, none, none, some .rfc6484⟩ := by decide +kernel

-- The specifications are met by those certificates, and not by every one.
example : CaSpec env (caExts (rsyncUrl 99#8)) (rsyncUrl 99#8) (caOut (rsyncUrl 99#8)) := (C61_ca ..).1 ca_ok
example : ∃ out, TaSpec env taExts out := ⟨_, (C61_ta ..).1 ta_ok⟩
example : ∃ out, EeSpec env [1#8, 2#8] eeExts out := ⟨_, (C61_ee ..).1 ee_ok⟩
example : ∀ out, ¬ CaSpec env (caExts (rsyncUrl 99#8)) (rsyncUrl 100#8) out := by
  intro out h
  rw [← C61_ca] at h
  have : validateCa env (caExts (rsyncUrl 99#8)) (some (rsyncUrl 100#8)) = .fail (-eINVAL) := by decide +kernel
  rw [this] at h
  cases h
example : ((caTable env).map (·.nid)).Nodup := ca_nodup env
example : Picked env .manifest .rsync sia (some (uri .rsync (rsyncUrl 109#8))) := ((C62 env .manifest .rsync true sia _).1 (by decide +kernel)).1
example : env.repo ≠ [] ∧ env.tal ≠ [] ∧ Uri.slash ∉ env.tal ∧ ∀ e ∈ caExts (rsyncUrl 99#8), WellTyped e := by
  refine ⟨by decide, by decide, by decide, ?_⟩
  simp [caExts, WellTyped]
example : handleKu 0x06#8 (.ku [6#8, 0#8]) St.init = .ok St.init ∧ handleKu 0x06#8 (.ku [7#8]) St.init ≠ .ok St.init := by decide +kernel
example : refsValidateEe ⟨[], none, some (rsyncUrl 99#8), some (uri .rsync (rsyncUrl 105#8)), some (uri .rsync (rsyncUrl 115#8)), some .rfc8360⟩ (some (rsyncUrl 99#8)) (rsyncUrl 115#8) =
  .ok ⟨[], none, some (rsyncUrl 99#8), some (uri .rsync (rsyncUrl 105#8)), some (uri .rsync (rsyncUrl 115#8)), some .rfc8360⟩ := by decide +kernel
example : getCertificateType false 1 0 (some [false, true]) = some .bgpsec := by decide

end Demo

/-- **C100 (refuted).** There's a CA certificate that is accepted although its distribution point is not the URL of the CRL: what follows a NUL is not compared. -/
theorem C100_refuted : ∃ (env : Env) (exts : List (Ext Val)) (crl text : List Byte) (out : St), 0#8 ∉ crl ∧ validateCa env exts (some crl) = .ok out ∧ out.crldp = some text ∧ text ≠ crl ∧
    ∃ names, Has exts .cdp (.cdp [⟨false, false, some (.full names)⟩]) ∧ FirstRsync names text := by
  have hs := (C61_ca ..).1 Demo.ca_nul
  obtain ⟨names, text, h1, h2, h3⟩ := hs.cdp
  refine ⟨_, _, _, text, _, by decide, Demo.ca_nul, h3, ?_, names, h1, h2⟩
  have : some text = some (Demo.rsyncUrl 99#8 ++ [0#8, 120#8]) := h3.symm
  injection this with this
  rw [this]
  decide

end Verif.Ext
