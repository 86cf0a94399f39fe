import Verif.Ext.Lemmas
/-
What each of the handlers accepts.
-/
namespace Verif.Ext
open Verif.Res (Byte)
open Verif.Uri (Uri UriType uriCreate R Err)

theorem keyHash_iff (env : Env) (spk : Option (List Byte)) (id : List Byte) : validatePublicKeyHash env spk id = true ↔ KeyId env spk id := by
  unfold validatePublicKeyHash KeyId
  cases spk with
  | none => simp
  | some k =>
    cases h : env.sha1 k with
    | none => simp [h]
    | some a =>
      simp only [Bool.and_eq_true, decide_eq_true_eq, Option.some.injEq, exists_eq_left', h]
      constructor
      · rintro ⟨h1, h2⟩
        rw [h2, h1, List.take_length]
      · rintro rfl
        exact ⟨rfl, (List.take_length).symm⟩

theorem bc_iff (v : Val) (s s' : St) : handleBc v s = .ok s' ↔ v = .bc false ∧ s' = s := by
  unfold handleBc
  cases v with
  | bc p => cases p <;> simp [eq_comm]
  | _ => simp

theorem skiCa_iff (env : Env) (v : Val) (s s' : St) : handleSkiCa env v s = .ok s' ↔ (∃ id, v = .ski id ∧ KeyId env env.spk id) ∧ s' = s := by
  unfold handleSkiCa
  cases v with
  | ski id =>
    simp only [Val.ski.injEq, exists_eq_left', ← keyHash_iff]
    by_cases h : validatePublicKeyHash env env.spk id = true
    · rw [if_pos h]
      simp [h, eq_comm]
    · rw [if_neg h]
      simp [h]
  | _ => simp

theorem skiEe_iff (env : Env) (sid : List Byte) (v : Val) (s s' : St) : handleSkiEe env sid v s = .ok s' ↔ (v = .ski sid ∧ KeyId env env.spk sid) ∧ s' = s := by
  unfold handleSkiEe
  cases v with
  | ski id =>
    simp only [Val.ski.injEq]
    by_cases h : validatePublicKeyHash env env.spk id = false
    · rw [if_pos h]
      constructor
      · intro h; cases h
      · rintro ⟨⟨rfl, h1⟩, -⟩
        rw [(keyHash_iff _ _ _).2 h1] at h
        cases h
    · rw [if_neg h]
      have hk : KeyId env env.spk id := (keyHash_iff _ _ _).1 (by simpa using h)
      by_cases h2 : id.length ≠ sid.length ∨ id.take sid.length ≠ sid.take sid.length
      · rw [if_pos h2]
        constructor
        · intro h; cases h
        · rintro ⟨⟨rfl, -⟩, -⟩
          rcases h2 with h2 | h2 <;> exact absurd rfl h2
      · rw [if_neg h2]
        have h3 : id = sid := by
          have h4 : id.length = sid.length := by
            by_contra h; exact h2 (.inl h)
          have h5 : id.take sid.length = sid.take sid.length := by
            by_contra h; exact h2 (.inr h)
          rwa [← h4, List.take_length, h4, List.take_length] at h5
        subst h3
        constructor
        · intro h
          injection h with h
          exact ⟨⟨rfl, hk⟩, h.symm⟩
        · rintro ⟨-, rfl⟩
          rfl
  | _ => simp

theorem akiTa_iff (exts : List (Ext Val)) (v : Val) (s s' : St) :
    handleAkiTa exts v s = .ok s' ↔ (∃ id i n, v = .aki (some id) i n ∧ getSki exts = some id) ∧ s' = s := by
  unfold handleAkiTa
  cases v with
  | aki k i n =>
    cases k with
    | none => simp
    | some id =>
      cases h : getSki exts with
      | none => simp
      | some ski =>
        simp only
        by_cases he : id = ski
        · subst he
          simp [eq_comm]
        · rw [if_neg he]
          constructor
          · intro h; cases h
          · rintro ⟨⟨a, b, c, h1, h2⟩, -⟩
            injection h1 with h1
            injection h1 with h1
            injection h2 with h2
            exact absurd (h1.trans h2.symm) he
  | _ => simp

theorem aki_iff (env : Env) (v : Val) (s s' : St) :
    handleAki env v s = .ok s' ↔ (∃ id spk, v = .aki (some id) false false ∧ env.parent = some spk ∧ KeyId env spk id) ∧ s' = s := by
  unfold handleAki
  cases v with
  | aki k i n =>
    cases k with
    | none => simp
    | some id =>
      cases i with
      | true => simp
      | false =>
        cases n with
        | true => simp
        | false =>
          cases h : env.parent with
          | none => simp
          | some spk =>
            simp only [Bool.false_eq_true, if_false]
            by_cases hk : validatePublicKeyHash env spk id = true
            · rw [if_pos hk]
              have := (keyHash_iff _ _ _).1 hk
              constructor
              · intro h
                injection h with h
                exact ⟨⟨id, spk, rfl, rfl, this⟩, h.symm⟩
              · rintro ⟨-, rfl⟩
                rfl
            · rw [if_neg hk]
              constructor
              · intro h; cases h
              · rintro ⟨⟨a, b, h1, h2, h3⟩, -⟩
                injection h1 with h1
                injection h1 with h1
                injection h2 with h2
                subst h1 h2
                exact absurd ((keyHash_iff _ _ _).2 h3) hk
  | _ => simp

theorem ku_iff (byte1 : Byte) (v : Val) (s s' : St) : handleKu byte1 v s = .ok s' ↔ (v = .ku [byte1] ∨ v = .ku [byte1, 0#8]) ∧ s' = s := by
  unfold handleKu
  cases v with
  | ku d =>
    match d with
    | [] => simp
    | [a] =>
      by_cases h : a = byte1
      · subst h; simp [eq_comm]
      · simp [h]
    | [a, b] =>
      by_cases h : a = byte1
      · by_cases h2 : b = 0#8
        · subst h h2; simp [eq_comm]
        · simp [h2]
      · simp [h]
    | _ :: _ :: _ :: _ => simp
  | _ => simp

theorem isRsync_iff (t : List Byte) : isRsync t = true ↔ Uri.rsyncPrefix <+: t := by
  unfold isRsync
  rw [List.prefix_iff_eq_take]
  have h8 : Uri.rsyncPrefix.length = 8 := rfl
  rw [h8]
  by_cases h : t.length ≥ 8
  · rw [if_pos h, decide_eq_true_eq, eq_comm]
  · rw [if_neg h]
    constructor
    · intro h; cases h
    · intro he
      have := congrArg List.length he
      rw [h8, List.length_take] at this
      omega

theorem cdpLoop_iff (s s' : St) (names : List Name) : cdpLoop s names = .ok s' ↔ ∃ text, FirstRsync names text ∧ s' = { s with crldp := some text } := by
  unfold FirstRsync
  induction names with
  | nil =>
    rw [cdpLoop]
    constructor
    · intro h; cases h
    · rintro ⟨t, ⟨pre, post, h, -⟩, -⟩
      cases pre <;> cases h
  | cons n names ih =>
    have skipCase : ∀ n : Name, (∀ b t, n = .uri b t → ¬ Uri.rsyncPrefix <+: t) →
        ((∃ text, (∃ pre post, n :: names = pre ++ .uri false text :: post ∧ Uri.rsyncPrefix <+: text ∧ ∀ b t, Name.uri b t ∈ pre → ¬ Uri.rsyncPrefix <+: t) ∧
            s' = { s with crldp := some text }) ↔
          ∃ text, (∃ pre post, names = pre ++ .uri false text :: post ∧ Uri.rsyncPrefix <+: text ∧ ∀ b t, Name.uri b t ∈ pre → ¬ Uri.rsyncPrefix <+: t) ∧
            s' = { s with crldp := some text }) := by
      intro n hn
      constructor
      · rintro ⟨text, ⟨pre, post, h1, h2, h3⟩, h4⟩
        cases pre with
        | nil =>
          injection h1 with h1 h5
          exact absurd h2 (hn _ _ h1)
        | cons p pre =>
          injection h1 with h1 h5
          exact ⟨text, ⟨pre, post, h5, h2, fun b t hb => h3 b t (List.mem_cons_of_mem _ hb)⟩, h4⟩
      · rintro ⟨text, ⟨pre, post, h1, h2, h3⟩, h4⟩
        refine ⟨text, ⟨n :: pre, post, by rw [h1]; rfl, h2, ?_⟩, h4⟩
        intro b t hb
        rcases List.mem_cons.1 hb with hb | hb
        · exact hn b t hb.symm
        · exact h3 b t hb
    cases n with
    | other =>
      rw [cdpLoop, ih, skipCase]
      intro b t h
      cases h
    | uri bits text =>
      rw [cdpLoop]
      by_cases hr : isRsync text = true
      · rw [if_pos hr]
        have hp := (isRsync_iff text).1 hr
        cases bits with
        | true =>
          simp only [if_true]
          constructor
          · intro h; cases h
          · rintro ⟨t, ⟨pre, post, h1, h2, h3⟩, -⟩
            cases pre with
            | nil => injection h1 with h1; injection h1 with h1; cases h1
            | cons p pre =>
              injection h1 with h1 h5
              exact absurd hp (h3 true text (by rw [h1]; exact List.mem_cons_self))
        | false =>
          rw [if_neg (by decide)]
          constructor
          · intro h
            injection h with h
            exact ⟨text, ⟨[], names, rfl, hp, (fun b t h => by cases h)⟩, h.symm⟩
          · rintro ⟨t, ⟨pre, post, h1, h2, h3⟩, h4⟩
            cases pre with
            | nil =>
              injection h1 with h1
              injection h1 with h0 h1
              rw [h4, h1]
            | cons p pre =>
              injection h1 with h1 h5
              exact absurd hp (h3 false text (by rw [h1]; exact List.mem_cons_self))
      · rw [if_neg hr, ih, skipCase]
        intro b t h
        injection h with h1 h2
        subst h2
        exact fun hp => hr ((isRsync_iff text).2 hp)

theorem cdp_iff (v : Val) (s s' : St) : handleCdp v s = .ok s' ↔
    ∃ names text, v = .cdp [⟨false, false, some (.full names)⟩] ∧ FirstRsync names text ∧ s' = { s with crldp := some text } := by
  unfold handleCdp
  cases v with
  | cdp points =>
    match points with
    | [] => simp
    | _ :: _ :: _ => simp
    | [⟨ci, re, dp⟩] =>
      simp only
      cases ci with
      | true => simp
      | false =>
        cases re with
        | true => simp
        | false =>
          simp only [Bool.false_eq_true, if_false]
          match dp with
          | none => simp
          | some .relative => simp
          | some .unknown => simp
          | some (.full names) =>
            simp only [cdpLoop_iff]
            constructor
            · rintro ⟨t, h1, h2⟩
              exact ⟨names, t, rfl, h1, h2⟩
            · rintro ⟨n, t, h0, h1, h2⟩
              injection h0 with h0
              injection h0 with h0
              injection h0 with _ _ h0
              injection h0 with h0
              injection h0 with h0
              subst h0
              exact ⟨t, h1, h2⟩
  | _ => simp

theorem uriAd_ok (env : Env) (type : UriType) (ad : Ad) (u : Uri) : uriCreateAd env type ad.location = .ok u ↔ Usable env type ad u := by
  unfold uriCreateAd Usable
  cases h : ad.location with
  | other => simp
  | uri b t =>
    simp only [Name.uri.injEq]
    cases h2 : uriCreate env.repo (some env.tal) type none t with
    | ok w =>
      constructor
      · intro h; injection h with h; subst h; exact ⟨b, t, ⟨rfl, rfl⟩, h2⟩
      · rintro ⟨b', t', ⟨rfl, rfl⟩, h3⟩; rw [h2] at h3; injection h3 with h3; rw [h3]
    | err e =>
      constructor
      · intro h; cases e <;> cases h
      · rintro ⟨b', t', ⟨rfl, rfl⟩, h3⟩; rw [h2] at h3; cases h3
    | crash =>
      constructor
      · intro h; cases h
      · rintro ⟨b', t', ⟨rfl, rfl⟩, h3⟩; rw [h2] at h3; cases h3

theorem uriAd_skip (env : Env) (type : UriType) (ad : Ad) : uriCreateAd env type ad.location = .skip ↔ Foreign env type ad := by
  unfold uriCreateAd Foreign
  cases h : ad.location with
  | other => simp
  | uri b t =>
    simp only [Name.uri.injEq, reduceCtorEq, false_or]
    cases h2 : uriCreate env.repo (some env.tal) type none t with
    | ok w =>
      constructor
      · intro h; cases h
      · rintro ⟨b', t', ⟨rfl, rfl⟩, h3⟩; rw [h2] at h3; rcases h3 with h3 | h3 <;> cases h3
    | err e =>
      constructor
      · intro h
        refine ⟨b, t, ⟨rfl, rfl⟩, ?_⟩
        rw [h2]
        cases e
        · cases h
        · cases h
        · exact .inl rfl
        · exact .inr rfl
      · rintro ⟨b', t', ⟨rfl, rfl⟩, h3⟩
        rw [h2] at h3
        rcases h3 with h3 | h3 <;> injection h3 with h3 <;> subst h3 <;> rfl
    | crash =>
      constructor
      · intro h; cases h
      · rintro ⟨b', t', ⟨rfl, rfl⟩, h3⟩; rw [h2] at h3; rcases h3 with h3 | h3 <;> cases h3

theorem usable_not_foreign {env : Env} {type : UriType} {ad : Ad} {u : Uri} (h : Usable env type ad u) : ¬ Foreign env type ad := by
  intro h2
  rw [← uriAd_skip] at h2
  rw [← uriAd_ok] at h
  rw [h] at h2
  cases h2

theorem adLoop_some (env : Env) (m : Method) (type : UriType) (ads : List Ad) (u : Uri) (r : Option Uri) :
    adLoop env m type ads (some u) = .ok r ↔ r = some u ∧ ∀ ad ∈ ads, ad.method = m → Foreign env type ad := by
  induction ads with
  | nil =>
    rw [adLoop]
    constructor
    · intro h; injection h with h; exact ⟨h.symm, (fun _ h => by cases h)⟩
    · rintro ⟨rfl, -⟩; rfl
  | cons ad ads ih =>
    rw [adLoop]
    by_cases hm : ad.method = m
    · rw [if_pos hm]
      have all : (∀ x ∈ ad :: ads, x.method = m → Foreign env type x) ↔ Foreign env type ad ∧ ∀ x ∈ ads, x.method = m → Foreign env type x := by
        simp [hm]
      rw [all, ← uriAd_skip]
      cases h : uriCreateAd env type ad.location with
      | skip => simp [ih]
      | ok w => simp
      | fail e => simp
      | ub => simp
    · rw [if_neg hm, ih]
      simp [hm]

theorem adLoop_none (env : Env) (m : Method) (type : UriType) (ads : List Ad) (r : Option Uri) :
    adLoop env m type ads none = .ok r ↔ Picked env m type ads r := by
  induction ads with
  | nil =>
    rw [adLoop]
    cases r with
    | none => simp [Picked]
    | some u =>
      simp only [Picked]
      constructor
      · intro h; cases h
      · rintro ⟨pre, ad, post, h, -⟩
        cases pre <;> cases h
  | cons ad ads ih =>
    rw [adLoop]
    have hskip : (ad.method = m → Foreign env type ad) → (Picked env m type (ad :: ads) r ↔ Picked env m type ads r) := by
      intro hf
      cases r with
      | none =>
        simp only [Picked]
        constructor
        · exact fun h x hx => h x (List.mem_cons_of_mem _ hx)
        · intro h x hx
          rcases List.mem_cons.1 hx with rfl | hx
          · exact hf
          · exact h x hx
      | some u =>
        simp only [Picked]
        constructor
        · rintro ⟨pre, a, post, h1, h2, h3, h4⟩
          cases pre with
          | nil =>
            injection h1 with h1 h5
            subst h1
            exact absurd (hf h2) (usable_not_foreign h3)
          | cons p pre =>
            injection h1 with h1 h5
            exact ⟨pre, a, post, h5, h2, h3, fun x hx => h4 x (List.mem_cons_of_mem _ hx)⟩
        · rintro ⟨pre, a, post, h1, h2, h3, h4⟩
          refine ⟨ad :: pre, a, post, by rw [h1]; rfl, h2, h3, ?_⟩
          intro x hx
          rcases List.mem_cons.1 hx with rfl | hx
          · exact hf
          · exact h4 x hx
    by_cases hm : ad.method = m
    · rw [if_pos hm]
      cases h : uriCreateAd env type ad.location with
      | skip =>
        simp only
        rw [ih, hskip (fun _ => (uriAd_skip env type ad).1 h)]
      | ok w =>
        simp only
        have hu := (uriAd_ok env type ad w).1 h
        rw [adLoop_some]
        cases r with
        | none =>
          simp only [Picked, reduceCtorEq, false_and, false_iff]
          intro ha
          exact usable_not_foreign hu (ha ad List.mem_cons_self hm)
        | some u =>
          simp only [Picked, Option.some.injEq]
          constructor
          · rintro ⟨rfl, h2⟩
            exact ⟨[], ad, ads, rfl, hm, hu, h2⟩
          · rintro ⟨pre, a, post, h1, h2, h3, h4⟩
            cases pre with
            | nil =>
              injection h1 with h1 h5
              subst h1 h5
              refine ⟨?_, h4⟩
              rw [← uriAd_ok, h] at h3
              injection h3 with h3
              exact h3.symm
            | cons p pre =>
              injection h1 with h1 h5
              exact absurd (h4 p List.mem_cons_self (h1 ▸ hm)) (usable_not_foreign (h1 ▸ hu))
      | fail e =>
        simp only [reduceCtorEq, false_iff]
        intro hp
        have hno : ¬ Foreign env type ad := by rw [← uriAd_skip, h]; intro h; cases h
        have hnu : ∀ u, ¬ Usable env type ad u := by intro u; rw [← uriAd_ok, h]; intro h; cases h
        cases r with
        | none => exact hno (hp ad List.mem_cons_self hm)
        | some u =>
          obtain ⟨pre, a, post, h1, h2, h3, h4⟩ := hp
          cases pre with
          | nil => injection h1 with h1 h5; subst h1; exact hnu u h3
          | cons p pre => injection h1 with h1 h5; subst h1; exact hno (h4 _ List.mem_cons_self hm)
      | ub =>
        simp only [reduceCtorEq, false_iff]
        intro hp
        have hno : ¬ Foreign env type ad := by rw [← uriAd_skip, h]; intro h; cases h
        have hnu : ∀ u, ¬ Usable env type ad u := by intro u; rw [← uriAd_ok, h]; intro h; cases h
        cases r with
        | none => exact hno (hp ad List.mem_cons_self hm)
        | some u =>
          obtain ⟨pre, a, post, h1, h2, h3, h4⟩ := hp
          cases pre with
          | nil => injection h1 with h1 h5; subst h1; exact hnu u h3
          | cons p pre => injection h1 with h1 h5; subst h1; exact hno (h4 _ List.mem_cons_self hm)
    · rw [if_neg hm, ih, hskip (fun h => absurd h hm)]

theorem ad_iff (env : Env) (m : Method) (type : UriType) (required : Bool) (ads : List Ad) (r : Option Uri) :
    handleAd env m type required ads = .ok r ↔ Picked env m type ads r ∧ (required = true → r ≠ none) := by
  unfold handleAd
  rw [← adLoop_none]
  cases h : adLoop env m type ads none with
  | ok x =>
    cases x with
    | none =>
      cases required with
      | true =>
        simp only [if_true]
        constructor
        · intro h; cases h
        · rintro ⟨h1, h2⟩
          injection h1 with h1
          exact absurd h1.symm (h2 trivial)
      | false => simp
    | some u =>
      simp only
      constructor
      · intro h
        injection h with h
        subst h
        exact ⟨rfl, (fun _ h => by cases h)⟩
      · exact fun h => h.1
  | fail e => simp
  | ub => simp

theorem aia_iff (env : Env) (v : Val) (s s' : St) : handleAia env v s = .ok s' ↔
    ∃ ads u, v = .info ads ∧ Picked env .caIssuers .rsync ads (some u) ∧ s' = { s with caIssuers := some u } := by
  unfold handleAia
  cases v with
  | info ads =>
    simp only
    cases h : handleAd env .caIssuers .rsync true ads with
    | ok r =>
      obtain ⟨h1, h2⟩ := (ad_iff ..).1 h
      cases r with
      | none => exact absurd rfl (h2 rfl)
      | some u =>
        simp only
        constructor
        · intro h; injection h with h; exact ⟨ads, u, rfl, h1, h.symm⟩
        · rintro ⟨a, w, h3, h4, rfl⟩
          injection h3 with h3
          subst h3
          rw [(ad_iff env .caIssuers .rsync true ads (some w)).2 ⟨h4, (fun _ h => by cases h)⟩] at h
          injection h with h
          injection h with h
          rw [h]
    | fail e =>
      simp only [reduceCtorEq, false_iff]
      rintro ⟨a, w, h3, h4, -⟩
      injection h3 with h3
      subst h3
      rw [(ad_iff env .caIssuers .rsync true ads (some w)).2 ⟨h4, (fun _ h => by cases h)⟩] at h
      cases h
    | ub =>
      simp only [reduceCtorEq, false_iff]
      rintro ⟨a, w, h3, h4, -⟩
      injection h3 with h3
      subst h3
      rw [(ad_iff env .caIssuers .rsync true ads (some w)).2 ⟨h4, (fun _ h => by cases h)⟩] at h
      cases h
  | _ => simp

theorem siaEe_iff (env : Env) (v : Val) (s s' : St) : handleSiaEe env v s = .ok s' ↔
    ∃ ads u, v = .info ads ∧ Picked env .signedObject .rsync ads (some u) ∧ s' = { s with signedObject := some u } := by
  unfold handleSiaEe
  cases v with
  | info ads =>
    simp only
    cases h : handleAd env .signedObject .rsync true ads with
    | ok r =>
      obtain ⟨h1, h2⟩ := (ad_iff ..).1 h
      cases r with
      | none => exact absurd rfl (h2 rfl)
      | some u =>
        simp only
        constructor
        · intro h; injection h with h; exact ⟨ads, u, rfl, h1, h.symm⟩
        · rintro ⟨a, w, h3, h4, rfl⟩
          injection h3 with h3
          subst h3
          rw [(ad_iff env .signedObject .rsync true ads (some w)).2 ⟨h4, (fun _ h => by cases h)⟩] at h
          injection h with h
          injection h with h
          rw [h]
    | fail e =>
      simp only [reduceCtorEq, false_iff]
      rintro ⟨a, w, h3, h4, -⟩
      injection h3 with h3
      subst h3
      rw [(ad_iff env .signedObject .rsync true ads (some w)).2 ⟨h4, (fun _ h => by cases h)⟩] at h
      cases h
    | ub =>
      simp only [reduceCtorEq, false_iff]
      rintro ⟨a, w, h3, h4, -⟩
      injection h3 with h3
      subst h3
      rw [(ad_iff env .signedObject .rsync true ads (some w)).2 ⟨h4, (fun _ h => by cases h)⟩] at h
      cases h
  | _ => simp

theorem siaCa_iff (env : Env) (v : Val) (s s' : St) : handleSiaCa env v s = .ok s' ↔
    ∃ ads repo notify mft, v = .info ads ∧ Picked env .caRepository .rsync ads repo ∧ Picked env .notify .https ads notify ∧
      Picked env .manifest .rsync ads (some mft) ∧ s' = { s with rpp := s.rpp ++ repo.toList ++ notify.toList, mft := some mft } := by
  cases v with
  | info ads =>
    constructor
    · intro h
      unfold handleSiaCa at h
      simp only at h
      cases h1 : handleAd env .caRepository .rsync false ads with
      | fail e => rw [h1] at h; cases h
      | ub => rw [h1] at h; cases h
      | ok r1 =>
        rw [h1] at h
        simp only at h
        cases h2 : handleAd env .notify .https false ads with
        | fail e => rw [h2] at h; cases h
        | ub => rw [h2] at h; cases h
        | ok r2 =>
          rw [h2] at h
          simp only at h
          cases h3 : handleAd env .manifest .rsync true ads with
          | fail e => rw [h3] at h; cases h
          | ub => rw [h3] at h; cases h
          | ok r3 =>
            rw [h3] at h
            simp only at h
            injection h with h
            obtain ⟨h4, h5⟩ := (ad_iff ..).1 h3
            cases r3 with
            | none => exact absurd rfl (h5 rfl)
            | some m => exact ⟨ads, r1, r2, m, rfl, ((ad_iff ..).1 h1).1, ((ad_iff ..).1 h2).1, h4, h.symm⟩
    · rintro ⟨a, r1, r2, m, h0, h1, h2, h3, rfl⟩
      injection h0 with h0
      subst h0
      unfold handleSiaCa
      simp only
      rw [(ad_iff env .caRepository .rsync false ads r1).2 ⟨h1, (fun h => by cases h)⟩]
      simp only
      rw [(ad_iff env .notify .https false ads r2).2 ⟨h2, (fun h => by cases h)⟩]
      simp only
      rw [(ad_iff env .manifest .rsync true ads (some m)).2 ⟨h3, (fun _ h => by cases h)⟩]
  | _ => simp [handleSiaCa]

theorem cp_iff (v : Val) (s s' : St) : handleCp v s = .ok s' ↔
    ∃ p q, v = .cp [⟨some p, q⟩] ∧ (q = none ∨ q = some [] ∨ q = some [true]) ∧ s' = { s with policy := some p } := by
  unfold handleCp
  cases v with
  | cp infos =>
    match infos with
    | [] => simp
    | _ :: _ :: _ => simp
    | [⟨id, q⟩] =>
      cases id with
      | none => simp
      | some p =>
        have fin : ∀ q : Option (List Bool), (q = none ∨ q = some [] ∨ q = some [true]) →
            (Out.ok { s with policy := some p } = Out.ok s' ↔
              ∃ p' q', Val.cp [⟨some p, q⟩] = .cp [⟨some p', q'⟩] ∧ (q' = none ∨ q' = some [] ∨ q' = some [true]) ∧ s' = { s with policy := some p' }) := by
          intro q hq
          constructor
          · intro h
            injection h with h
            exact ⟨p, q, rfl, hq, h.symm⟩
          · rintro ⟨p', q', h1, h2, rfl⟩
            injection h1 with h1
            injection h1 with h1
            injection h1 with h1
            injection h1 with h1
            rw [h1]
        match q with
        | none => exact fin (none) (by simp)
        | some [] => exact fin (some []) (by simp)
        | some [true] => exact fin (some [true]) (by simp)
        | some [false] => simp
        | some (_ :: _ :: _) => simp
  | _ => simp

theorem ad_not_ub (env : Env) (m : Method) (type : UriType)
    (hu : ∀ text, uriCreate env.repo (some env.tal) type none text ≠ .crash) (required : Bool) (ads : List Ad) : handleAd env m type required ads ≠ .ub := by
  have loop : ∀ (ads : List Ad) found, adLoop env m type ads found ≠ .ub := by
    intro ads
    induction ads with
    | nil => intro found h; cases h
    | cons ad ads ih =>
      intro found
      rw [adLoop]
      by_cases hm : ad.method = m
      · rw [if_pos hm]
        cases h : uriCreateAd env type ad.location with
        | skip => exact ih found
        | fail e => intro h; cases h
        | ub =>
          exfalso
          unfold uriCreateAd at h
          cases hl : ad.location with
          | other => rw [hl] at h; cases h
          | uri b t =>
            rw [hl] at h
            simp only at h
            cases h2 : uriCreate env.repo (some env.tal) type none t with
            | ok u => rw [h2] at h; cases h
            | err e => rw [h2] at h; cases e <;> cases h
            | crash => exact hu t h2
        | ok u =>
          cases found with
          | some _ => intro h; cases h
          | none => exact ih (some u)
      · rw [if_neg hm]
        exact ih found
  unfold handleAd
  cases h : adLoop env m type ads none with
  | ok r =>
    cases r with
    | none => cases required <;> intro h <;> cases h
    | some u => intro h; cases h
  | fail e => intro h; cases h
  | ub => exact absurd h (loop ads none)

end Verif.Ext
