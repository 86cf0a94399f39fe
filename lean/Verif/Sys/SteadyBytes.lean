import Verif.Sys.BytesLemmas
import Verif.Mft.ShuffleProps
/-
A repository whose files do not change is steady.
-/
namespace Verif.Sys
open Verif.Tree Verif.Res
open Verif.Mft (Uri FileRes Tm Manifest Usable Sound HasExt extCer extRoa extGbr extCrl EeRefs FileAndHash)
open Verif.Sd (signedObjectDecode mftContent certOf)
open Verif.Asn (Leaf ber_leaf C171_ber)
variable {σ W X C S E : Type}

/-- Neither the files, the clock, nor what the library says change. (Random numbers do.) -/
structure SteadyRepo (q : Repo σ W X C S E) : Prop where
  crlLoad : ∀ s s' u, (q.crlLoad s u).2 = (q.crlLoad s' u).2
  load : ∀ s s' u, (q.load s u).2 = (q.load s' u).2
  chainOk : ∀ s s' x c xs, (q.chainOk s x c xs).2 = (q.chainOk s' x c xs).2
  profileOk : ∀ s s' x t, (q.profileOk s x t).2 = (q.profileOk s' x t).2
  extensions : ∀ s s' x t u, (q.extensions s x t u).2 = (q.extensions s' x t u).2
  download : ∀ s s' sia, (q.download s sia).2 = (q.download s' sia).2
  read : ∀ s s' u, q.read s u = q.read s' u
  now : ∀ s s', q.now s = q.now s'
  crypto : ∀ s s' c xs, q.crypto s c xs = q.crypto s' c xs

theorem sd_leaf {v : Asn.Val} {sd : Cms.SignedData} {x : List Byte} (h : Sd.sdOf v = some sd) (hx : sd.eContent = some x) : Leaf x v := by
  unfold Sd.sdOf at h
  split at h
  · rename_i ver das t c certs crls infos
    cases hc : Sd.optional Sd.bytesOf c with
    | none =>
      split at h
      · rename_i h2 _ _ _
        rw [hc] at h2
        cases h2
      · cases h
    | some c' =>
      have : sd.eContent = c' := by
        split at h
        · rename_i h2 _ _ _
          rw [hc] at h2
          cases h2
          cases h
          rfl
        · cases h
      rw [hx] at this
      subst this
      cases c with
      | none => cases hc
      | some w =>
        simp only [Sd.optional] at hc
        cases hw : Sd.bytesOf w with
        | none => rw [hw] at hc; cases hc
        | some w' =>
          rw [hw] at hc
          cases hc
          rw [Sd.bytesOf_inv hw]
          exact .seq (v := .seq [some (.bytes t), some (.bytes x)]) (by simp) (.seq (v := .bytes x) (by simp) .bytes)
  · cases h

theorem content_length {nuls : Sd.Nuls} {file enc x : List Byte} {sd : Cms.SignedData} (hd : signedObjectDecode nuls file = .ok (enc, sd)) (hx : sd.eContent = some x) :
    x.length ≤ file.length := by
  obtain ⟨hc, hsd⟩ := Sd.signedObjectDecode_inv hd
  have h1 := Sd.contentInfo_length hc
  suffices x.length ≤ enc.length by omega
  unfold Sd.signedDataDecode at hsd
  cases hs : Obj.got Sd.sdOf (Asn.asn1Decode (nuls Asn.signedDataTy enc) Asn.signedDataTy Asn.signedDataCon enc) with
  | hang => rw [hs] at hsd; cases hsd
  | bad => rw [hs] at hsd; cases hsd
  | ok sd' =>
    rw [hs] at hsd
    cases hsd
    obtain ⟨v, k1, k2⟩ := Sd.got_ok hs
    obtain ⟨s, rest, rfl, a2⟩ := C171_ber _ Sd.root_sd _ _ _ k1
    have := ber_leaf _ _ _ _ a2 (sd_leaf k2 hx)
    rw [List.length_append]
    omega
  | error =>
    rw [hs] at hsd
    simp only at hsd
    unfold Sd.decodePkcs7 at hsd
    cases hs : Obj.got Sd.sdOf (Asn.asn1Decode (nuls Asn.signedDataPKCS7Ty enc) Asn.signedDataPKCS7Ty Asn.signedDataPKCS7Con enc) with
    | hang => rw [hs] at hsd; cases hsd
    | bad => rw [hs] at hsd; cases hsd
    | error => rw [hs] at hsd; cases hsd
    | ok sd' =>
      rw [hs] at hsd
      simp only at hsd
      cases he : sd'.eContent with
      | none => rw [he] at hsd; cases hsd
      | some z =>
        rw [he] at hsd
        simp only at hsd
        cases hz : Obj.got Sd.bytesOf (Asn.asn1Decode (nuls Asn.contentTypePKCS7Ty z) Asn.contentTypePKCS7Ty Asn.contentTypePKCS7Con z) with
        | hang => rw [hz] at hsd; cases hsd
        | bad => rw [hz] at hsd; cases hsd
        | error => rw [hz] at hsd; cases hsd
        | ok w =>
          rw [hz] at hsd
          cases hsd
          simp only [Option.some.injEq] at hx
          subst hx
          obtain ⟨v, k1, k2⟩ := Sd.got_ok hs
          obtain ⟨s, rest, rfl, a2⟩ := C171_ber _ Sd.root_p7 _ _ _ k1
          obtain ⟨u, m1, m2⟩ := Sd.got_ok hz
          obtain ⟨o, more, rfl, c2⟩ := C171_ber _ Sd.root_ct7 _ _ _ m1
          rw [Sd.bytesOf_inv m2] at c2
          have h1 := ber_leaf _ _ _ _ a2 (sd_leaf k2 he)
          have h2 := ber_leaf _ _ _ _ c2 .bytes
          simp only [List.length_append] at h1 ⊢
          omega

theorem usable_perm {env : Mft.Env} {l l' : List FileAndHash} (h : l.Perm l') : ∀ {us : List Uri}, Usable env l us → ∃ us', Usable env l' us' ∧ us.Perm us' := by
  induction h with
  | nil => intro us h; exact ⟨us, h, .refl _⟩
  | cons x _ ih =>
    intro us h
    cases h with
    | take h1 h2 =>
      obtain ⟨us', k1, k2⟩ := ih h2
      exact ⟨_ :: us', .take h1 k1, k2.cons _⟩
    | skip h1 h2 =>
      obtain ⟨us', k1, k2⟩ := ih h2
      exact ⟨us', .skip h1 k1, k2⟩
  | swap x y l =>
    intro us h
    cases h with
    | take h1 h2 =>
      cases h2 with
      | take h3 h4 => exact ⟨_, .take h3 (.take h1 h4), .swap _ _ _⟩
      | skip h3 h4 => exact ⟨_, .skip h3 (.take h1 h4), .refl _⟩
    | skip h1 h2 =>
      cases h2 with
      | take h3 h4 => exact ⟨_, .take h3 (.skip h1 h4), .refl _⟩
      | skip h3 h4 => exact ⟨_, .skip h3 (.skip h1 h4), .refl _⟩
  | trans _ _ ih1 ih2 =>
    intro us h
    obtain ⟨us1, k1, k2⟩ := ih1 h
    obtain ⟨us2, k3, k4⟩ := ih2 k1
    exact ⟨us2, k3, k2.trans k4⟩

/-- Whatever the random numbers are, the publication point is the same, up to the order. -/
theorem buildRpp_any {env : Mft.Env} {rnd rnd' : Nat → Nat} {files : List FileAndHash} (hl : files.length < 2 ^ 31) {pp : Mft.Rpp} (h : Mft.buildRpp env rnd files = .ok pp) :
    ∃ pp', Mft.buildRpp env rnd' files = .ok pp' ∧ pp.crl = pp'.crl ∧ pp.certs.Perm pp'.certs ∧ pp.roas.Perm pp'.roas ∧ pp.gbrs.Perm pp'.gbrs := by
  obtain ⟨order, us, e, p1, p2, p3⟩ := (Mft.C49_rpp _ _ hl pp).1 h
  have hne : files.length ≠ 0 := by
    intro h0
    rw [List.length_eq_zero_iff] at h0
    subst h0
    have : Mft.shuffle rnd ([] : List FileAndHash) = .crash := rfl
    rw [this] at e
    cases e
  obtain ⟨order', e', p1'⟩ := Mft.shuffleLoop_perm rnd' (Mft.countPred files.length) 0 files (by unfold Mft.countPred; rw [if_neg hne]; omega) hl
  obtain ⟨us', p2', hp⟩ := usable_perm (p1.trans p1'.symm) p2
  obtain ⟨c, c1, c2⟩ := p3.crl
  have hf := fun ext => hp.filter (fun u => decide (HasExt ext u))
  have c3 : us'.filter (HasExt extCrl ·) = [c] := by
    have := hf extCrl
    rw [c2] at this
    exact List.perm_singleton.1 this.symm
  refine ⟨⟨us'.filter (HasExt extCer ·), some c, us'.filter (HasExt extRoa ·), us'.filter (HasExt extGbr ·)⟩,
    (Mft.C49_rpp _ _ hl _).2 ⟨order', us', e', p1', p2', rfl, rfl, rfl, c, rfl, c3⟩, c1, ?_, ?_, ?_⟩
  · rw [p3.certs]; exact hf _
  · rw [p3.roas]; exact hf _
  · rw [p3.gbrs]; exact hf _

theorem mftDecode_inv {q : Repo σ W X C S E} {s : Loaded σ} {sia : S} {d : Uri × W} {l : Lists (Uri × W)} (h : (q.mftDecode s sia d).2 = some l) :
    ∃ u b m pp crl, q.manifest sia d = some u ∧ q.read s.rest u = .content b ∧ mftContent q.nuls b = some m ∧ Mft.buildRpp (q.mftEnv s.rest u) (q.rnd s.rest) m.files = .ok pp ∧
      pp.crl = some crl ∧ l = ⟨pp.certs.map (·, u.2), (crl, u.2), pp.roas.map (·, u.2), pp.gbrs.map (·, u.2)⟩ ∧ (q.mftDecode s sia d).1 = ⟨s.rest, b⟩ := by
  unfold Repo.mftDecode at h ⊢
  cases hu : q.manifest sia d with
  | none => rw [hu] at h; cases h
  | some u =>
    rw [hu] at h
    simp only at h ⊢
    cases hr : q.read s.rest u with
    | missing => rw [hr] at h; cases h
    | error => rw [hr] at h; cases h
    | content b =>
      rw [hr] at h
      simp only at h
      cases hm : mftContent q.nuls b with
      | none => rw [hm] at h; cases h
      | some m =>
        rw [hm] at h
        simp only at h
        cases hb : Mft.buildRpp (q.mftEnv s.rest u) (q.rnd s.rest) m.files with
        | crash => rw [hb] at h; cases h
        | err => rw [hb] at h; cases h
        | skip => rw [hb] at h; cases h
        | ok pp =>
          rw [hb] at h
          simp only [Option.map_eq_some_iff] at h
          obtain ⟨crl, hc, rfl⟩ := h
          exact ⟨u, b, m, pp, crl, rfl, hr, hm, hb, hc, rfl, rfl⟩

theorem mftDecode_of {q : Repo σ W X C S E} {s : Loaded σ} {sia : S} {d u : Uri × W} {b : List Byte} {m : Manifest} {pp : Mft.Rpp} {crl : Uri} (h1 : q.manifest sia d = some u)
    (h2 : q.read s.rest u = .content b) (h3 : mftContent q.nuls b = some m) (h4 : Mft.buildRpp (q.mftEnv s.rest u) (q.rnd s.rest) m.files = .ok pp) (h5 : pp.crl = some crl) :
    q.mftDecode s sia d = (⟨s.rest, b⟩, some ⟨pp.certs.map (·, u.2), (crl, u.2), pp.roas.map (·, u.2), pp.gbrs.map (·, u.2)⟩) := by
  unfold Repo.mftDecode
  rw [h1]
  simp only
  rw [h2]
  simp only
  rw [h3]
  simp only
  rw [h4]
  simp only
  rw [h5]
  rfl

theorem mft_short {nuls : Sd.Nuls} {b : List Byte} {m : Manifest} (h : mftContent nuls b = some m) (hl : b.length < 2 ^ 30) : m.files.length < 2 ^ 31 := by
  obtain ⟨enc, sd, x, k1, k2, k3⟩ := mftContent_inv h
  have h1 := mft_files k3
  have h2 := content_length k1 k2
  omega

theorem SteadyRepo.env {q : Repo σ W X C S E} (h : SteadyRepo q) (s s' : σ) (u : Uri × W) : q.mftEnv s u = q.mftEnv s' u := by
  unfold Repo.mftEnv
  congr 1
  funext v
  exact h.read _ _ _

theorem SteadyRepo.lib {q : Repo σ W X C S E} (h : SteadyRepo q) (s s' : σ) (c : C) (xs : List X) : q.lib s c xs = q.lib s' c xs := by
  unfold Repo.lib
  rw [h.crypto s s' c xs]

theorem SteadyRepo.eeFile {q : Repo σ W X C S E} (h : SteadyRepo q) {s s' : Loaded σ} (he : s.file = s'.file) (oid : List Nat) (c : C) (xs : List X) {more more' : EeRefs → Bool}
    (hm : ∀ e, more e = more' e) : q.eeFile s oid c xs more = q.eeFile s' oid c xs more' := by
  unfold Repo.eeFile
  rw [he, h.lib s.rest s'.rest c xs]
  simp only [hm]

theorem SteadyRepo.steady {q : Repo σ W X C S E} (hlen : ∀ s u b, q.read s u = .content b → b.length < 2 ^ 30) (h : SteadyRepo q) : Steady q.pki where
  crlLoad _ _ u := h.crlLoad _ _ u
  load _ _ u := h.load _ _ u
  chainOk _ _ x c xs := h.chainOk _ _ x c xs
  profileOk _ _ x t := h.profileOk _ _ x t
  extensions _ _ x t u := h.extensions _ _ x t u
  download _ _ sia := h.download _ _ sia
  mftDecode s s' sia d l hd := by
    obtain ⟨u, b, m, pp, crl, h1, h2, h3, h4, h5, rfl, -⟩ := mftDecode_inv hd
    obtain ⟨pp', k1, k2, k3, k4, k5⟩ := buildRpp_any (rnd' := q.rnd s'.rest) (mft_short h3 (hlen _ _ _ h2)) h4
    rw [h.env s.rest s'.rest] at k1
    rw [h.read s.rest s'.rest] at h2
    have := mftDecode_of h1 h2 h3 k1 (k2 ▸ h5)
    have e : (q.pki.mftDecode s' sia d).2 = some ⟨pp'.certs.map (·, u.2), (crl, u.2), pp'.roas.map (·, u.2), pp'.gbrs.map (·, u.2)⟩ := congrArg Prod.snd this
    exact ⟨_, e, k3.map _, rfl, k4.map _, k5.map _⟩
  mftFile s s' sia d l l' c xs h1 h2 := by
    obtain ⟨u, b, m, pp, crl, a1, a2, a3, a4, a5, rfl, a6⟩ := mftDecode_inv h1
    obtain ⟨u', b', m', pp', crl', b1, b2, b3, b4, b5, rfl, b6⟩ := mftDecode_inv h2
    rw [a1] at b1
    cases b1
    rw [h.read s.rest s'.rest, b2] at a2
    cases a2
    rw [a3] at b3
    cases b3
    obtain ⟨pp'', k1, k2, -⟩ := buildRpp_any (rnd' := q.rnd s'.rest) (mft_short a3 (hlen _ _ _ b2)) a4
    rw [h.env s.rest s'.rest, b4] at k1
    cases k1
    rw [a5, b5] at k2
    cases k2
    show (q.mftFile (keep (q.crlLoad · (crl, u.2)) (q.mftDecode s sia d).1).1 sia d _ c xs).2 = (q.mftFile (keep (q.crlLoad · (crl, u.2)) (q.mftDecode s' sia d).1).1 sia d _ c xs).2
    rw [a6, b6]
    unfold Repo.mftFile keep
    simp only
    refine h.eeFile (by rfl) _ _ _ fun e => ?_
    rw [h.now (q.crlLoad s.rest (crl, u.2)).1 (q.crlLoad s'.rest (crl, u.2)).1]
  roaDecode s s' u := by
    show (q.roaDecode s u).2 = (q.roaDecode s' u).2
    unfold Repo.roaDecode Repo.readFile
    rw [h.read s.rest s'.rest]
    cases q.read s'.rest u <;> rfl
  roaFile s s' u crl c xs hd := by
    have hd : (q.roaDecode s u).2 = true := hd
    show (q.roaFile (q.roaDecode s u).1 u crl c xs).2 = (q.roaFile (q.roaDecode s' u).1 u crl c xs).2
    unfold Repo.roaDecode Repo.readFile at hd ⊢
    rw [h.read s.rest s'.rest] at hd ⊢
    cases hr : q.read s'.rest u with
    | missing => rw [hr] at hd; cases hd
    | error => rw [hr] at hd; cases hd
    | content b =>
      unfold Repo.roaFile
      simp only
      rw [h.lib s.rest s'.rest]

end Verif.Sys
