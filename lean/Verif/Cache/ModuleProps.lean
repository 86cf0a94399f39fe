import Verif.Cache.DownloadProps
/-
C74: an rsync URL is widened to its module before it is downloaded.
-/
namespace Verif.Cache
open Verif.Res (Byte)
open Verif.Uri

/-- The path is the directory or a file in it. -/
def Under (dir path : List Byte) : Prop := path = dir ∨ (dir ++ [slash]) <+: path

/-- **C74 does not hold.** This URL's file is not in the directory that is downloaded for it. -/
theorem C74_refuted : ∃ (u : Uri) (m : Url),
    uriCreate (txt "/r") (some (txt "t")) .rsync none (txt "rsync://a/b/../c/d.cer") = .ok u ∧
    getUrl (txt "/r") (txt "t") ⟨u, false⟩ = .ok m ∧ ¬ Under m.uri.loc u.loc := by
  refine ⟨⟨txt "rsync://a/b/../c/d.cer", txt "/r/t/rsync/a/c/d.cer", .rsync⟩,
    ⟨⟨txt "rsync://a/b/", txt "/r/t/rsync/a/b", .rsync⟩, false⟩, by decide +kernel, by decide +kernel, ?_⟩
  unfold Under
  decide +kernel

theorem fourthSlash_eq : ∀ (k n : Nat) (segs : List (List Byte)) (rest : List Byte), (∀ s ∈ segs, slash ∉ s) →
    segs.length = k → n + k = 4 → 0 < k →
    fourthSlash n (segs.flatMap (fun s => s ++ [slash]) ++ rest) = some (segs.flatMap (fun s => s ++ [slash])) := by
  intro k
  induction k with
  | zero => intro n segs rest _ _ _ h; omega
  | succ k ih =>
    intro n segs rest hs hl hn _
    cases segs with
    | nil => simp at hl
    | cons s segs =>
      simp only [List.length_cons] at hl
      have hs0 := hs s (by simp)
      have hs' : ∀ s ∈ segs, slash ∉ s := fun x hx => hs x (by simp [hx])
      simp only [List.flatMap_cons, List.append_assoc]
      have walk : ∀ (s tail : List Byte), slash ∉ s → fourthSlash n (s ++ tail) = (fourthSlash n tail).map (s ++ ·) := by
        intro s
        induction s with
        | nil => intro tail _; simp
        | cons a s ih2 =>
          intro tail h
          rw [List.mem_cons, not_or] at h
          rw [List.cons_append, fourthSlash, if_neg (fun e => h.1 e.symm), ih2 tail h.2, Option.map_map]
          rfl
      rw [walk _ _ hs0]
      by_cases hk : k = 0
      · subst hk
        cases segs with
        | cons _ _ => simp at hl
        | nil => simp [fourthSlash, hn]
      · have h3 : fourthSlash n ([slash] ++ (segs.flatMap (fun s => s ++ [slash]) ++ rest)) =
            (fourthSlash (n + 1) (segs.flatMap (fun s => s ++ [slash]) ++ rest)).map (slash :: ·) := by
          rw [List.singleton_append, fourthSlash, if_pos rfl, if_neg (by omega)]
        rw [h3, ih (n + 1) segs rest hs' (by omega) (by omega) (by omega)]
        simp

theorem fourthSlash_none : ∀ (l : List Byte) (n : Nat), n + l.count slash < 4 → fourthSlash n l = none := by
  intro l
  induction l with
  | nil => intro n _; rfl
  | cons a l ih =>
    intro n h
    rw [List.count_cons] at h
    unfold fourthSlash
    by_cases ha : a = slash
    · rw [if_pos ha]
      rw [if_pos (by simpa using ha)] at h
      rw [if_neg (by omega), ih (n + 1) (by omega)]
      rfl
    · rw [if_neg ha]
      rw [if_neg (by simpa using ha)] at h
      rw [ih n (by omega)]
      rfl

/-- A URL in the usual form: scheme, host and module, and the rest of the path, whose first two names are proper. -/
def plainUrl (host mod : List Byte) (rest : List (List Byte)) : List Byte :=
  rsyncPrefix ++ host ++ [slash] ++ mod ++ rest.flatMap (fun s => slash :: s)

theorem splitSlash_plain (host mod : List Byte) (rest : List (List Byte)) (hh : slash ∉ host) (hm : slash ∉ mod)
    (hr : ∀ s ∈ rest, slash ∉ s) : splitSlash ((plainUrl host mod rest).drop 8) = host :: mod :: rest := by
  have : (plainUrl host mod rest).drop 8 = pathOf host (mod :: rest) := by
    have h8 : rsyncPrefix.length = 8 := rfl
    simp only [plainUrl, pathOf, List.append_assoc]
    rw [← h8, List.drop_left]
    simp
  rw [this, splitSlash_pathOf]
  · have := splitSlash_snoc [] host hh
    simp only [List.nil_append, splitSlash, List.singleton_append, if_true] at this
    simp only [List.cons.injEq, true_and] at this
    rw [this]; rfl
  · intro c hc
    rcases List.mem_cons.1 hc with rfl | hc
    · exact hm
    · exact hr c hc

theorem normalize_acc : ∀ (ss acc cs : List (List Byte)) , (∀ s ∈ ss, s ≠ [dot, dot]) → normalize ss acc = some cs → acc <+: cs := by
  intro ss
  induction ss with
  | nil => intro acc cs _ h; simp only [normalize, Option.some.injEq] at h; subst h; exact List.prefix_rfl
  | cons s ss ih =>
    intro acc cs hd h
    have hd' : ∀ s ∈ ss, s ≠ [dot, dot] := fun x hx => hd x (by simp [hx])
    unfold normalize at h
    split at h
    · exact ih acc cs hd' h
    · rw [if_neg (hd s (by simp))] at h
      exact (List.prefix_append acc [s]).trans (ih _ cs hd' h)

/-- **C74, partial.** For URLs in the usual form, with host and module and without ".." in the rest of the path: what is
downloaded is the module, and the URL's file is in the directory the module is downloaded to. (For the module itself the
URL gets a trailing slash.) What is missing: URLs with ".." or with an empty or "." module, for which it is false. -/
theorem C74_partial {repo t host mod : List Byte} {rest : List (List Byte)} (hr : repo ≠ []) (ht : t ≠ [])
    (hh : Proper host) (hm : Proper mod) (hrest : ∀ s ∈ rest, slash ∉ s ∧ s ≠ [dot, dot]) {u : Uri}
    (hu : uriCreate repo (some t) .rsync none (plainUrl host mod rest) = .ok u) (m : Url)
    (hm' : getUrl repo t ⟨u, false⟩ = .ok m) :
    m.uri.global = rsyncPrefix ++ host ++ [slash] ++ mod ++ [slash] ∧
    m.uri.loc = pathOf repo [t, UriType.rsync.scheme, host, mod] ∧ Under m.uri.loc u.loc := by
  -- the URL's own path
  have hspec : ∀ g u, uriCreate repo (some t) .rsync none g = .ok u → u.global = g ∧ u.type = .rsync ∧
      ∃ cs, urlComps g = some cs ∧ u.loc = pathOf repo ([t, UriType.rsync.scheme] ++ cs) := by
    intro g u h
    rcases C37_mapping hr ht .rsync none (by simp) g with ⟨l, -, h1, h2⟩ | ⟨e, -, h2, -⟩ | ⟨-, h2⟩
    · rw [h2] at h
      cases h
      refine ⟨rfl, rfl, ?_⟩
      have h1 : specSimple repo t .rsync g = some l := h1
      unfold specSimple at h1
      split at h1
      · obtain ⟨cs, e, rfl⟩ := Option.map_eq_some_iff.1 h1
        exact ⟨cs, e, rfl⟩
      · cases h1
    · rw [h2] at h; cases h
    · rw [h2] at h; cases h
  obtain ⟨hg, hty, cs, hcs, hloc⟩ := hspec _ u hu
  have hsp := splitSlash_plain host mod rest hh.2.1 hm.2.1 (fun s hs => (hrest s hs).1)
  have hne : (plainUrl host mod rest).drop 8 ≠ [] := by
    intro e; rw [e] at hsp; simp [splitSlash] at hsp
  have hpre : [host, mod] <+: cs := by
    unfold urlComps at hcs
    rw [hsp] at hcs
    simp only [hne, hh.2.2.1, hh.2.2.2, or_self, if_false, hh.1] at hcs
    obtain ⟨ds, h1, rfl⟩ := Option.map_eq_some_iff.1 hcs
    rw [normalize] at h1
    rw [if_neg (by rintro (h | h); exacts [hm.1 h, hm.2.2.1 h]), if_neg hm.2.2.2, List.nil_append] at h1
    obtain ⟨z, hz⟩ := normalize_acc rest [mod] ds (fun s hs => (hrest s hs).2) h1
    exact ⟨z, by rw [← hz]; simp⟩
  -- the module's
  have hmodg : ∃ mu, m = ⟨mu, false⟩ ∧
      uriCreate repo (some t) .rsync none (rsyncPrefix ++ host ++ [slash] ++ mod ++ [slash]) = .ok mu := by
    unfold getUrl at hm'
    rw [if_neg (by simp [hty])] at hm'
    simp only [hg] at hm'
    cases rest with
    | nil =>
      have hcount : (plainUrl host mod []).count slash = 3 := by
        have h1 : host.count slash = 0 := List.count_eq_zero.2 hh.2.1
        have h2 : mod.count slash = 0 := List.count_eq_zero.2 hm.2.1
        have h0 : rsyncPrefix.count slash = 2 := by decide
        simp [plainUrl, List.count_append, h0, h1, h2]
      have hlast : (plainUrl host mod []).getLast? ≠ some slash := by
        obtain ⟨ms, a, rfl⟩ : ∃ ms a, mod = ms ++ [a] := ⟨mod.dropLast, mod.getLast hm.1, (List.dropLast_concat_getLast hm.1).symm⟩
        have ha : a ≠ slash := fun e => hm.2.1 (by simp [e])
        simp only [plainUrl, List.flatMap_nil, List.append_nil, ← List.append_assoc, List.getLast?_concat]
        simpa using ha
      rw [fourthSlash_none _ 0 (by omega)] at hm'
      simp only at hm'
      rw [if_pos ⟨hcount, hlast⟩] at hm'
      obtain ⟨mu, e1, e2⟩ := bind_eq_ok.1 hm'
      cases e2
      refine ⟨mu, rfl, ?_⟩
      simpa [plainUrl] using e1
    | cons s rest =>
      have h4 := fourthSlash_eq 4 0 [[0x72, 0x73, 0x79, 0x6E, 0x63, 0x3A], [], host, mod]
        (s ++ rest.flatMap (fun s => slash :: s)) (by
          intro x hx
          simp only [List.mem_cons, List.not_mem_nil, or_false] at hx
          rcases hx with rfl | rfl | rfl | rfl
          · decide
          · simp
          · exact hh.2.1
          · exact hm.2.1) rfl rfl (by decide)
      have e0 : plainUrl host mod (s :: rest) =
          [[0x72, 0x73, 0x79, 0x6E, 0x63, 0x3A], [], host, mod].flatMap (fun s => s ++ [slash]) ++ (s ++ rest.flatMap (fun s => slash :: s)) := by
        simp [plainUrl, rsyncPrefix, slash]
      rw [e0, h4] at hm'
      simp only at hm'
      obtain ⟨mu, e1, e2⟩ := bind_eq_ok.1 hm'
      cases e2
      refine ⟨mu, rfl, ?_⟩
      simpa [rsyncPrefix, slash] using e1
  obtain ⟨mu, rfl, hmu⟩ := hmodg
  obtain ⟨hg2, -, ds, hds, hloc2⟩ := hspec _ mu hmu
  have hsp2 := splitSlash_plain host mod [[]] hh.2.1 hm.2.1 (by simp)
  have e1 : plainUrl host mod [[]] = rsyncPrefix ++ host ++ [slash] ++ mod ++ [slash] := by simp [plainUrl]
  rw [e1] at hsp2
  have hds2 : ds = [host, mod] := by
    have hne2 : (rsyncPrefix ++ host ++ [slash] ++ mod ++ [slash]).drop 8 ≠ [] := by
      intro e; rw [e] at hsp2; simp [splitSlash] at hsp2
    unfold urlComps at hds
    rw [hsp2] at hds
    simp only [hne2, hh.2.2.1, hh.2.2.2, or_self, if_false, hh.1] at hds
    obtain ⟨es, h1, rfl⟩ := Option.map_eq_some_iff.1 hds
    rw [normalize] at h1
    rw [if_neg (by rintro (h | h); exacts [hm.1 h, hm.2.2.1 h]), if_neg hm.2.2.2, List.nil_append] at h1
    simp only [normalize, true_or, if_true, Option.some.injEq] at h1
    rw [← h1]; rfl
  subst hds2
  refine ⟨hg2, hloc2, ?_⟩
  obtain ⟨z, hz⟩ := hpre
  simp only
  rw [hloc2, hloc, ← hz]
  cases z with
  | nil => left; simp
  | cons a z =>
    right
    refine ⟨a ++ z.flatMap (fun c => slash :: c), ?_⟩
    simp [pathOf]

example : uriCreate (txt "/r") (some (txt "t")) .rsync none (plainUrl (txt "a") (txt "b") [txt "c", txt "", txt ".", txt "d.cer"]) =
    .ok ⟨txt "rsync://a/b/c//./d.cer", txt "/r/t/rsync/a/b/c/d.cer", .rsync⟩ := by decide +kernel
example : getUrl (txt "/r") (txt "t") ⟨⟨txt "rsync://a/b/c//./d.cer", txt "/r/t/rsync/a/b/c/d.cer", .rsync⟩, false⟩ =
    .ok ⟨⟨txt "rsync://a/b/", txt "/r/t/rsync/a/b", .rsync⟩, false⟩ := by decide +kernel
example : getUrl (txt "/r") (txt "t") ⟨⟨txt "rsync://a/b", txt "/r/t/rsync/a/b", .rsync⟩, false⟩ =
    .ok ⟨⟨txt "rsync://a/b/", txt "/r/t/rsync/a/b", .rsync⟩, false⟩ := by decide +kernel

end Verif.Cache
