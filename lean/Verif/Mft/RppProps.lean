import Verif.Mft.ShuffleProps
/-
C48 (refutation), C49: publication points.
-/
namespace Verif.Mft
open Verif.Res (Byte)

theorem buildRpp_crash {env : Env} {rnd : Nat → Nat} {files : List FileAndHash} (h : shuffle rnd files = .crash) :
    buildRpp env rnd files = .crash := by
  unfold buildRpp
  rw [h]

theorem handleManifest_crash {env : Env} {rnd : Nat → Nat} {now : Option Tm} {crlOk : Uri → Bool} {signed : Uri → Option EeRefs} {uri : Uri}
    {m : Manifest} (h : buildRpp env rnd m.files = .crash) : handleManifest env rnd now crlOk signed uri (some m) = .crash := by
  unfold handleManifest
  dsimp only
  rw [h]

/-- **C48 does not hold.** A manifest without files makes the program divide by zero, before it looks at the manifest's signature. -/
theorem C48_refuted (env : Env) (rnd : Nat → Nat) (now : Option Tm) (crlOk : Uri → Bool) (signed : Uri → Option EeRefs) (uri : Uri)
    (m : Manifest) (h : m.files = []) : handleManifest env rnd now crlOk signed uri (some m) = .crash := by
  exact handleManifest_crash (buildRpp_crash (shuffle_nil' h rnd))

/-- The hypotheses are met, and the order is not always the same. -/
example : shuffle (fun _ => 0) [1, 2, 3] = .ok [1, 2, 3] ∧ shuffle (fun _ => 5) [1, 2, 3] = .ok [3, 1, 2] := by decide +kernel

theorem hashMatches_iff (a b : List Byte) : hashMatches a b = true ↔ a = b := by
  unfold hashMatches
  simp only [Bool.and_eq_true, decide_eq_true_eq]
  constructor
  · rintro ⟨h1, h2⟩
    rw [List.take_length, h1, List.take_length] at h2
    exact h2
  · rintro rfl; exact ⟨rfl, rfl⟩

theorem incidence_ok (a : Action) : incidence a = .ok () ↔ a ≠ .error := by cases a <;> simp [incidence]

theorem hashValidate_cases {env : Env} {f : FileAndHash} {u : Uri} (hu : env.mkUri f.file = some u) :
    (hashValidateMftFile env u f = .ok () ∧ (Matches env f u ∨ Tolerated env f u) ∧ ¬ Absent env f) ∨
    (hashValidateMftFile env u f = .skip ∧ Absent env f ∧ ∀ v, ¬ (Matches env f v ∨ Tolerated env f v)) ∨
    (hashValidateMftFile env u f = .err ∧ ¬ Absent env f ∧ ∀ v, ¬ (Matches env f v ∨ Tolerated env f v)) := by
  have huv : ∀ v, env.mkUri f.file = some v → v = u := fun v hv => Option.some.inj (hv.symm.trans hu)
  unfold hashValidateMftFile
  by_cases h0 : f.unused = 0
  · rw [if_neg (by simpa using h0)]
    cases hr : env.read u with
    | missing =>
      simp only
      have hno : ∀ v, ¬ (Matches env f v ∨ Tolerated env f v) := by
        rintro v (⟨h1, -, b, h2, -⟩ | ⟨h1, -, ⟨b, h2⟩, -⟩) <;> (rw [huv v h1, hr] at h2; cases h2)
      cases hn : env.notFound with
      | error =>
        refine .inr (.inr ⟨rfl, ?_, hno⟩)
        rintro ⟨v, -, -, -, h⟩
        exact h hn
      | warn => exact .inr (.inl ⟨rfl, ⟨u, hu, h0, hr, by rw [hn]; decide⟩, hno⟩)
      | ignore => exact .inr (.inl ⟨rfl, ⟨u, hu, h0, hr, by rw [hn]; decide⟩, hno⟩)
    | error =>
      refine .inr (.inr ⟨rfl, ?_, ?_⟩)
      · rintro ⟨v, h1, -, h2, -⟩
        rw [huv v h1, hr] at h2; cases h2
      · rintro v (⟨h1, -, b, h2, -⟩ | ⟨h1, -, ⟨b, h2⟩, -⟩) <;> (rw [huv v h1, hr] at h2; cases h2)
    | content b =>
      simp only
      have habs : ¬ Absent env f := by
        rintro ⟨v, h1, -, h2, -⟩
        rw [huv v h1, hr] at h2; cases h2
      by_cases hm : f.hash = env.sha256 b
      · rw [if_pos ((hashMatches_iff _ _).2 hm)]
        exact .inl ⟨rfl, .inl ⟨hu, h0, b, hr, hm⟩, habs⟩
      · rw [if_neg (by rw [hashMatches_iff]; exact hm)]
        cases hn : env.mismatch with
        | error =>
          refine .inr (.inr ⟨rfl, habs, ?_⟩)
          rintro v (⟨h1, -, b', h2, h3⟩ | ⟨-, -, -, h⟩)
          · rw [huv v h1, hr] at h2; cases h2; exact hm h3
          · exact h hn
        | warn => exact .inl ⟨rfl, .inr ⟨hu, h0, ⟨b, hr⟩, by rw [hn]; decide⟩, habs⟩
        | ignore => exact .inl ⟨rfl, .inr ⟨hu, h0, ⟨b, hr⟩, by rw [hn]; decide⟩, habs⟩
  · rw [if_pos h0]
    refine .inr (.inr ⟨rfl, ?_, ?_⟩)
    · rintro ⟨v, -, h, -⟩; exact h0 h
    · rintro v (⟨-, h, -⟩ | ⟨-, h, -⟩) <;> exact h0 h

theorem endsWith_iff (s suf : List Byte) : endsWith s suf = true ↔ suf <:+ s := by
  unfold endsWith
  constructor
  · intro h
    split at h
    · cases h
    · simp only [decide_eq_true_eq] at h
      rw [← h]
      exact List.drop_suffix _ _
  · intro h
    have := h.length_le
    rw [if_neg (by omega)]
    simp only [decide_eq_true_eq]
    obtain ⟨t, rfl⟩ := h
    simp

/-- Different extensions, of the same length, exclude each other. -/
theorem ext_excl {a b : List Byte} {u : Uri} (hl : a.length = b.length) (hne : a ≠ b) (ha : HasExt a u) : ¬ HasExt b u := by
  intro hb
  unfold HasExt at ha hb
  obtain ⟨t, rfl⟩ := ha
  obtain ⟨t', e⟩ := hb
  exact hne (List.append_inj_right' e hl.symm).symm

/-- What the loop makes of the usable files: `pp0` is what was there before. -/
structure Adds (pp0 pp : Rpp) (us : List Uri) : Prop where
  certs : pp.certs = pp0.certs ++ us.filter (HasExt extCer ·)
  roas : pp.roas = pp0.roas ++ us.filter (HasExt extRoa ·)
  gbrs : pp.gbrs = pp0.gbrs ++ us.filter (HasExt extGbr ·)
  crl : pp.crl.toList = pp0.crl.toList ++ us.filter (HasExt extCrl ·)

theorem addFile_some {pp pp1 : Rpp} {u : Uri} (h : addFile pp u = some pp1) : Adds pp pp1 [u] := by
  unfold addFile at h
  simp only [endsWith_iff] at h
  split at h
  · rename_i hx
    cases h
    have hx : HasExt extCer u := hx
    have h2 := ext_excl (a := extCer) (b := extRoa) rfl (by decide) hx
    have h3 := ext_excl (a := extCer) (b := extCrl) rfl (by decide) hx
    have h4 := ext_excl (a := extCer) (b := extGbr) rfl (by decide) hx
    constructor <;> simp [hx, h2, h3, h4]
  · rename_i h1
    have h1 : ¬ HasExt extCer u := h1
    split at h
    · rename_i hx
      cases h
      have hx : HasExt extRoa u := hx
      have h3 := ext_excl (a := extRoa) (b := extCrl) rfl (by decide) hx
      have h4 := ext_excl (a := extRoa) (b := extGbr) rfl (by decide) hx
      constructor <;> simp [hx, h1, h3, h4]
    · rename_i h2
      have h2 : ¬ HasExt extRoa u := h2
      split at h
      · rename_i hx
        have hx : HasExt extCrl u := hx
        have h4 := ext_excl (a := extCrl) (b := extGbr) rfl (by decide) hx
        unfold rppAddCrl at h
        split at h
        · cases h
        · rename_i hc
          cases h
          constructor <;> simp [hx, h1, h2, h4, hc]
      · rename_i h3
        have h3 : ¬ HasExt extCrl u := h3
        split at h
        · rename_i hx
          have hx : HasExt extGbr u := hx
          cases h
          constructor <;> simp [hx, h1, h2, h3]
        · rename_i h4
          have h4 : ¬ HasExt extGbr u := h4
          cases h
          constructor <;> simp [h1, h2, h3, h4]

theorem addFile_none {pp : Rpp} {u : Uri} : addFile pp u = none ↔ HasExt extCrl u ∧ pp.crl ≠ none := by
  unfold addFile
  simp only [endsWith_iff]
  constructor
  · intro h
    split at h
    · cases h
    · split at h
      · cases h
      · split at h
        · rename_i hx
          unfold rppAddCrl at h
          split at h
          · rename_i hc
            exact ⟨hx, by rw [hc]; exact fun h => by cases h⟩
          · cases h
        · split at h <;> cases h
  · rintro ⟨hx, hc⟩
    change (if HasExt extCer u then _ else if HasExt extRoa u then _ else if HasExt extCrl u then _ else _) = _
    rw [if_neg (ext_excl (a := extCrl) (b := extCer) rfl (by decide) hx), if_neg (ext_excl (a := extCrl) (b := extRoa) rfl (by decide) hx), if_pos hx]
    unfold rppAddCrl
    split
    · rfl
    · rename_i h; exact absurd h hc

theorem Adds.trans {a b c : Rpp} {us vs : List Uri} (h1 : Adds a b us) (h2 : Adds b c vs) : Adds a c (us ++ vs) := by
  obtain ⟨p1, p2, p3, p4⟩ := h1
  obtain ⟨q1, q2, q3, q4⟩ := h2
  constructor
  · rw [q1, p1, List.filter_append, List.append_assoc]
  · rw [q2, p2, List.filter_append, List.append_assoc]
  · rw [q3, p3, List.filter_append, List.append_assoc]
  · rw [q4, p4, List.filter_append, List.append_assoc]

theorem toList_length (o : Option Uri) : o.toList.length ≤ 1 := by cases o <;> simp

theorem filesLoop_iff (env : Env) : ∀ (fs : List FileAndHash) (pp0 pp : Rpp), filesLoop env pp0 fs = .ok pp ↔
    ∃ us, Usable env fs us ∧ Adds pp0 pp us := by
  intro fs
  induction fs with
  | nil =>
    intro pp0 pp
    unfold filesLoop
    constructor
    · intro h; cases h; exact ⟨[], .nil, by constructor <;> simp⟩
    · rintro ⟨us, hu, h⟩
      cases hu
      obtain ⟨p1, p2, p3, p4⟩ := h
      simp only [List.filter_nil, List.append_nil] at p1 p2 p3 p4
      have p4' : pp.crl = pp0.crl := by
        cases h1 : pp.crl <;> cases h2 : pp0.crl <;> rw [h1, h2] at p4 <;> simp_all
      cases pp; cases pp0
      simp_all
  | cons f fs ih =>
    intro pp0 pp
    unfold filesLoop
    cases hu : env.mkUri f.file with
    | none =>
      constructor
      · intro h; cases h
      · rintro ⟨us, hus, -⟩
        cases hus with
        | take h _ =>
          rcases h with h | h
          · cases hu.symm.trans h.1
          · cases hu.symm.trans h.1
        | skip h _ => obtain ⟨u, h, -⟩ := h; rw [hu] at h; cases h
    | some u =>
      simp only
      rcases hashValidate_cases hu with ⟨e, hm, hna⟩ | ⟨e, ha, hnm⟩ | ⟨e, hna, hnm⟩
      · rw [e]
        simp only
        cases hadd : addFile pp0 u with
        | none =>
          constructor
          · intro h; cases h
          · rintro ⟨us, hus, h⟩
            obtain ⟨hx, hc⟩ := addFile_none.1 hadd
            cases hus with
            | @take _ _ v us hv hus =>
              have : v = u := by
                rcases hv with h | h <;> exact Option.some.inj (h.1.symm.trans hu)
              subst this
              have h4 := h.crl
              have hlen := congrArg List.length h4
              rw [List.filter_cons_of_pos (by simpa using hx)] at hlen
              simp only [List.length_append, List.length_cons] at hlen
              have h5 := toList_length pp.crl
              have h6 : pp0.crl.toList.length = 1 := by
                cases hcc : pp0.crl with
                | none => exact absurd hcc hc
                | some _ => simp
              omega
            | skip h _ => exact absurd h hna
        | some pp1 =>
          simp only
          rw [ih]
          have h1 := addFile_some hadd
          constructor
          · rintro ⟨us, hus, h⟩
            exact ⟨u :: us, .take hm hus, h1.trans h⟩
          · rintro ⟨us, hus, h⟩
            cases hus with
            | @take _ _ v us hv hus =>
              have : v = u := by
                rcases hv with h | h <;> exact Option.some.inj (h.1.symm.trans hu)
              subst this
              refine ⟨us, hus, ?_⟩
              obtain ⟨p1, p2, p3, p4⟩ := h1
              obtain ⟨q1, q2, q3, q4⟩ := h
              rw [← List.singleton_append, List.filter_append, ← List.append_assoc] at q1 q2 q3 q4
              constructor
              · rw [q1, p1]
              · rw [q2, p2]
              · rw [q3, p3]
              · rw [q4, p4]
            | skip h _ => exact absurd h hna
      · rw [e]
        simp only
        rw [ih]
        constructor
        · rintro ⟨us, hus, h⟩; exact ⟨us, .skip ha hus, h⟩
        · rintro ⟨us, hus, h⟩
          cases hus with
          | take hv _ => exact absurd hv (hnm _)
          | skip _ hus => exact ⟨us, hus, h⟩
      · rw [e]
        constructor
        · intro h; cases h
        · rintro ⟨us, hus, -⟩
          cases hus with
          | take hv _ => exact absurd hv (hnm _)
          | skip h _ => exact absurd h hna

/-- **C49.** A manifest gives the publication point `pp` if and only if each of the listed files is usable, or absent and this is
tolerated; and `pp` consists of the usable ones, in some order, with exactly one CRL among them. (An empty manifest is C48's.) -/
theorem C49_rpp (env : Env) (rnd : Nat → Nat) {files : List FileAndHash} (hl : files.length < 2 ^ 31) (pp : Rpp) :
    buildRpp env rnd files = .ok pp ↔
    ∃ order us, shuffle rnd files = .ok order ∧ order.Perm files ∧ Usable env order us ∧ Holds pp us := by
  have holds : ∀ {us}, (Adds ⟨[], none, [], []⟩ pp us ∧ pp.crl ≠ none) ↔ Holds pp us := by
    intro us
    constructor
    · rintro ⟨⟨p1, p2, p3, p4⟩, hc⟩
      simp only [List.nil_append, Option.toList_none] at p1 p2 p3 p4
      refine ⟨p1, p2, p3, ?_⟩
      cases h : pp.crl with
      | none => exact absurd h hc
      | some c => rw [h] at p4; exact ⟨c, rfl, p4.symm⟩
    · rintro ⟨p1, p2, p3, c, hc, p4⟩
      refine ⟨⟨by simpa using p1, by simpa using p2, by simpa using p3, ?_⟩, by rw [hc]; exact fun h => by cases h⟩
      rw [hc, p4]; rfl
  unfold buildRpp
  cases hs : shuffle rnd files with
  | ok order =>
    simp only
    have hperm : order.Perm files := by
      by_cases hne : files = []
      · subst hne
        exfalso
        rw [shuffle_nil] at hs; cases hs
      · obtain ⟨l', e, hp⟩ := C48_partial rnd hne hl
        rw [hs] at e; cases e; exact hp
    constructor
    · intro h
      split at h
      · rename_i pp' hf
        split at h
        · cases h
        · rename_i hc
          cases h
          obtain ⟨us, h1, h2⟩ := (filesLoop_iff _ _ _ _).1 hf
          exact ⟨order, us, rfl, hperm, h1, holds.1 ⟨h2, by rw [hc]; exact fun h => by cases h⟩⟩
      · rename_i hno
        exact absurd h (hno pp)
    · rintro ⟨order', us, e, -, h1, h2⟩
      cases e
      obtain ⟨h3, h4⟩ := holds.2 h2
      rw [(filesLoop_iff env order _ pp).2 ⟨us, h1, h3⟩]
      simp only
      split
      · rename_i hc; exact absurd hc h4
      · rfl
  | skip => constructor <;> (intro h; first | (obtain ⟨_, _, h, -⟩ := h; cases h) | cases h)
  | err => constructor <;> (intro h; first | (obtain ⟨_, _, h, -⟩ := h; cases h) | cases h)
  | crash => constructor <;> (intro h; first | (obtain ⟨_, _, h, -⟩ := h; cases h) | cases h)

theorem usable_strict {env : Env} (h1 : env.notFound = .error) (h2 : env.mismatch = .error) {fs : List FileAndHash} {us : List Uri}
    (h : Usable env fs us) : ∀ f ∈ fs, ∃ u ∈ us, Matches env f u := by
  induction h with
  | nil => intro f hf; cases hf
  | take hm _ ih =>
    intro f hf
    rcases List.mem_cons.1 hf with rfl | hf
    · rcases hm with hm | hm
      · exact ⟨_, List.mem_cons_self .., hm⟩
      · exact absurd h2 hm.2.2.2
    · obtain ⟨u, hu, h⟩ := ih f hf
      exact ⟨u, List.mem_cons_of_mem _ hu, h⟩
  | skip ha _ _ => obtain ⟨_, _, _, _, h⟩ := ha; exact absurd h1 h

theorem usable_listed {env : Env} {fs : List FileAndHash} {us : List Uri} (h : Usable env fs us) :
    ∀ u ∈ us, ∃ f ∈ fs, env.mkUri f.file = some u := by
  induction h with
  | nil => intro u hu; cases hu
  | take hm _ ih =>
    intro u hu
    rcases List.mem_cons.1 hu with rfl | hu
    · rcases hm with hm | hm <;> exact ⟨_, List.mem_cons_self .., hm.1⟩
    · obtain ⟨f, hf, h⟩ := ih u hu
      exact ⟨f, List.mem_cons_of_mem _ hf, h⟩
  | skip _ _ ih =>
    intro u hu
    obtain ⟨f, hf, h⟩ := ih u hu
    exact ⟨f, List.mem_cons_of_mem _ hf, h⟩

/-- **C49, by default.** Unless the configuration tolerates it, every listed file exists and has the listed hash, and one of them is the
CRL. -/
theorem C49_strict {env : Env} {rnd : Nat → Nat} {files : List FileAndHash} (hl : files.length < 2 ^ 31) {pp : Rpp}
    (h1 : env.notFound = .error) (h2 : env.mismatch = .error) (h : buildRpp env rnd files = .ok pp) :
    (∀ f ∈ files, ∃ u, Matches env f u) ∧ (∃ f ∈ files, ∃ c, pp.crl = some c ∧ Matches env f c ∧ HasExt extCrl c) ∧
    (∀ f ∈ files, ∀ f' ∈ files, ∀ u u', Matches env f u → Matches env f' u' → HasExt extCrl u → HasExt extCrl u' → u = u') ∧
    ∀ u, (u ∈ pp.certs ∨ u ∈ pp.roas ∨ u ∈ pp.gbrs) → ∃ f ∈ files, Matches env f u := by
  obtain ⟨order, us, -, hp, hu, hh⟩ := (C49_rpp env rnd hl pp).1 h
  have hs := usable_strict h1 h2 hu
  have hlst := usable_listed hu
  have back : ∀ u ∈ us, ∃ f ∈ files, Matches env f u := by
    intro u hu
    obtain ⟨f, hf, e⟩ := hlst u hu
    obtain ⟨v, -, hv⟩ := hs f hf
    have : u = v := Option.some.inj (e.symm.trans hv.1)
    subst this
    exact ⟨f, hp.subset hf, hv⟩
  have fwd : ∀ f ∈ files, ∀ u, Matches env f u → u ∈ us := by
    intro f hf u hm
    obtain ⟨v, hv, hm'⟩ := hs f (hp.symm.subset hf)
    have : u = v := Option.some.inj (hm.1.symm.trans hm'.1)
    subst this
    exact hv
  obtain ⟨c, hc, hf⟩ := hh.crl
  have hcm : ∀ u, u ∈ us ∧ HasExt extCrl u ↔ u = c := by
    intro u
    have : u ∈ us.filter (HasExt extCrl ·) ↔ u ∈ us ∧ HasExt extCrl u := by simp [List.mem_filter]
    rw [← this, hf, List.mem_singleton]
  refine ⟨?_, ?_, ?_, ?_⟩
  · intro f hf
    obtain ⟨u, -, hm⟩ := hs f (hp.symm.subset hf)
    exact ⟨u, hm⟩
  · obtain ⟨h1, h2⟩ := (hcm c).2 rfl
    obtain ⟨f, hf, hm⟩ := back c h1
    exact ⟨f, hf, c, hc, hm, h2⟩
  · intro f hf f' hf' u u' hm hm' hx hx'
    rw [(hcm u).1 ⟨fwd f hf u hm, hx⟩, (hcm u').1 ⟨fwd f' hf' u' hm', hx'⟩]
  · intro u hu
    rw [hh.certs, hh.roas, hh.gbrs] at hu
    simp only [List.mem_filter] at hu
    rcases hu with h | h | h <;> exact back u h.1

namespace Ex
/-- Two good files. Hashes are the files; names are URIs. -/
def env : Env := ⟨some, fun u => if u.length < 5 then .missing else .content [u.head?.getD 0], id, .error, .error, .error⟩
def files : List FileAndHash := [⟨[1] ++ extCrl, [1], 0⟩, ⟨[2] ++ extRoa, [2], 0⟩, ⟨[3] ++ extCer, [3], 0⟩]
end Ex

/-- The hypotheses are met; and a second CRL, an absent one, and a wrong hash are noticed. -/
example : buildRpp Ex.env (fun _ => 5) Ex.files = .ok ⟨[[3] ++ extCer], some ([1] ++ extCrl), [[2] ++ extRoa], []⟩ := by decide +kernel
example : buildRpp Ex.env (fun _ => 5) (⟨[7] ++ extCrl, [7], 0⟩ :: Ex.files) = .err := by decide +kernel
example : buildRpp Ex.env (fun _ => 5) (Ex.files.drop 1) = .err := by decide +kernel
example : buildRpp Ex.env (fun _ => 5) (⟨[7] ++ extGbr, [8], 0⟩ :: Ex.files) = .err := by decide +kernel

end Verif.Mft
