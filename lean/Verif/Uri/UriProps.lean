import Verif.Uri.MapLemmas
/-
C37, C39, C40: URLs and the files they are stored in. The specification is in SpecUri.lean.
-/
namespace Verif.Uri
open Verif.Res (Byte)

/-! ### C37 -/

/-- Characters a URL can have. -/
def Printable (g : List Byte) : Prop := ∀ b ∈ g, 0x20 ≤ b ∧ b ≤ 0x7E

theorem str2global_eq (g : List Byte) [Decidable (Printable g)] :
    str2global g = if Printable g then .ok g else .err .inval := by
  unfold str2global
  have : g.all validUrlChar = true ↔ Printable g := by
    simp [List.all_eq_true, validUrlChar, Printable]
  by_cases h : Printable g
  · rw [if_pos h, if_pos (this.2 h)]
  · rw [if_neg h, if_neg (fun e => h (this.1 e))]

/-- The specification of the whole mapping. -/
def specLocal (repo t : List Byte) (type : UriType) (notif : Option Uri) (g : List Byte) : Option (List Byte) :=
  match type, notif with
  | .caged, some n => specCaged repo t n.global g
  | .caged, none => none
  | type, _ => specSimple repo t type g

/-- Length of the URL that gives the directory. -/
def notifLen (notif : Option Uri) : Nat := match notif with | none => 0 | some n => n.global.length

open Classical in
/-- **C37, the mapping.** Creating a URI never crashes (a file of an RRDP repository comes with the notification's URI). It
succeeds exactly for printable URLs with the right scheme whose path makes sense, and the local path is the one of the
specification; unless the path is too long, which is an error too. -/
theorem C37_mapping {repo t : List Byte} (hr : repo ≠ []) (ht : t ≠ []) (type : UriType) (notif : Option Uri)
    (hn : type = .caged → notif ≠ none) (g : List Byte) :
    (∃ l, Printable g ∧ specLocal repo t type notif g = some l ∧ uriCreate repo (some t) type notif g = .ok ⟨g, l, type⟩) ∨
    (∃ e, (¬ Printable g ∨ specLocal repo t type notif g = none) ∧ uriCreate repo (some t) type notif g = .err e ∧
      e ≠ .nospc) ∨
    (maxCapacity ≤ repo.length + t.length + 6 + notifLen notif + g.length ∧
      uriCreate repo (some t) type notif g = .err .nospc) := by
  unfold uriCreate
  rw [str2global_eq]
  have hpl : (pathOf repo [t]).length = repo.length + t.length + 1 := by simp [pathOf]; omega
  by_cases hp : Printable g
  · rw [if_pos hp, ok_bind]
    cases type with
    | rsync =>
      simp only [autocompleteLocal, specLocal]
      rcases mapSimple_spec hr ht .rsync g .notRsync (by simp) with ⟨l, h1, h2⟩ | ⟨e, h1, h2, h3⟩ | ⟨h1, h2⟩
      · rw [show rsyncPrefix = UriType.rsync.prefix from rfl, h2, ok_bind]
        exact .inl ⟨l, hp, h1, rfl⟩
      · rw [show rsyncPrefix = UriType.rsync.prefix from rfl, h2]
        exact .inr (.inl ⟨e, .inr h1, rfl, h3⟩)
      · rw [show rsyncPrefix = UriType.rsync.prefix from rfl, h2]
        exact .inr (.inr ⟨by omega, rfl⟩)
    | https =>
      simp only [autocompleteLocal, specLocal]
      rcases mapSimple_spec hr ht .https g .notHttps (by simp) with ⟨l, h1, h2⟩ | ⟨e, h1, h2, h3⟩ | ⟨h1, h2⟩
      · rw [show httpsPrefix = UriType.https.prefix from rfl, h2, ok_bind]
        exact .inl ⟨l, hp, h1, rfl⟩
      · rw [show httpsPrefix = UriType.https.prefix from rfl, h2]
        exact .inr (.inl ⟨e, .inr h1, rfl, h3⟩)
      · rw [show httpsPrefix = UriType.https.prefix from rfl, h2]
        exact .inr (.inr ⟨by omega, rfl⟩)
    | caged =>
      cases notif with
      | none => exact absurd rfl (hn rfl)
      | some n =>
        simp only [autocompleteLocal, specLocal]
        rcases mapCaged_spec hr ht n.global g with ⟨l, h1, h2⟩ | ⟨e, h1, h2, h3⟩ | ⟨h1, h2⟩
        · rw [h2, ok_bind]
          exact .inl ⟨l, hp, h1, rfl⟩
        · rw [h2]
          exact .inr (.inl ⟨e, .inr h1, rfl, h3⟩)
        · rw [h2]
          refine .inr (.inr ⟨?_, rfl⟩)
          simp only [notifLen]
          omega
  · rw [if_neg hp]
    exact .inr (.inl ⟨.inval, .inl hp, rfl, by simp⟩)

/-- The three directories of a TAL. -/
def UriType.dir : UriType → List Byte
  | .caged => rrdpName
  | t => t.scheme

theorem specLocal_comps {repo t : List Byte} {type : UriType} {notif : Option Uri} {g l : List Byte}
    (h : specLocal repo t type notif g = some l) :
    ∃ cs, l = pathOf repo ([t, type.dir] ++ cs) ∧ ∀ c ∈ cs, Proper c := by
  have simple : ∀ type, specSimple repo t type g = some l →
      ∃ cs, l = pathOf repo ([t, type.scheme] ++ cs) ∧ ∀ c ∈ cs, Proper c := by
    intro type h
    unfold specSimple at h
    split at h
    · obtain ⟨cs, h1, rfl⟩ := Option.map_eq_some_iff.1 h
      exact ⟨cs, rfl, urlComps_proper h1⟩
    · simp at h
  cases type with
  | rsync => exact simple .rsync h
  | https => exact simple .https h
  | caged =>
    cases notif with
    | none => simp [specLocal] at h
    | some n =>
      simp only [specLocal, specCaged, specCage] at h
      split at h
      · simp at h
      · rename_i cage hc
        split at hc
        · obtain ⟨ns, h1, rfl⟩ := Option.map_eq_some_iff.1 hc
          split at h
          · cases h
            exact ⟨ns, rfl, urlComps_proper h1⟩
          · split at h
            · obtain ⟨cs, h2, rfl⟩ := Option.map_eq_some_iff.1 h
              refine ⟨ns ++ cs, by rw [← pathOf_append, List.append_assoc]; rfl, ?_⟩
              intro c hc
              rcases List.mem_append.1 hc with h | h
              · exact urlComps_proper h1 c h
              · exact urlComps_proper h2 c h
            · simp at h
        · simp at hc

/-- **C37.** Whatever the URL, if it is accepted, the segments of its local path are those of the repository directory, the
TAL's directory, one of "rsync", "https", "rrdp", and then names that are not empty, "." or "..": the file is in the
TAL's directory. -/
theorem C37_confined {repo t : List Byte} (hr : repo ≠ []) (ht : t ≠ []) (hts : slash ∉ t) (type : UriType)
    (notif : Option Uri) (hn : type = .caged → notif ≠ none) (g : List Byte) (u : Uri)
    (h : uriCreate repo (some t) type notif g = .ok u) :
    ∃ cs, splitSlash u.loc = splitSlash repo ++ [t, type.dir] ++ cs ∧ u.loc = pathOf repo ([t, type.dir] ++ cs) ∧
      ∀ c ∈ cs, Proper c := by
  rcases C37_mapping hr ht type notif hn g with ⟨l, -, h1, h2⟩ | ⟨e, -, h2, -⟩ | ⟨-, h2⟩
  · rw [h2] at h
    cases h
    obtain ⟨cs, rfl, hcs⟩ := specLocal_comps h1
    refine ⟨cs, ?_, rfl, hcs⟩
    rw [splitSlash_pathOf, List.append_assoc]
    intro c hc
    simp only [List.cons_append, List.nil_append, List.mem_cons] at hc
    rcases hc with rfl | rfl | hc
    · exact hts
    · cases type <;> decide
    · exact (hcs c hc).2.1
  · rw [h2] at h; cases h
  · rw [h2] at h; cases h

/-- Segments that move nowhere change nothing: the local path depends on the components the URL names only. -/
theorem C37_same_components {repo t : List Byte} (hr : repo ≠ []) (ht : t ≠ []) (type : UriType) (hc : type ≠ .caged)
    (g₁ g₂ : List Byte) (u₁ u₂ : Uri) (h₁ : uriCreate repo (some t) type none g₁ = .ok u₁)
    (h₂ : uriCreate repo (some t) type none g₂ = .ok u₂) : u₁.loc = u₂.loc ↔ urlComps g₁ = urlComps g₂ := by
  have key : ∀ g u, uriCreate repo (some t) type none g = .ok u →
      ∃ cs, urlComps g = some cs ∧ u.loc = pathOf (pathOf repo [t, type.scheme]) cs := by
    intro g u h
    rcases C37_mapping hr ht type none (fun e => absurd e hc) g with ⟨l, -, h1, h2⟩ | ⟨e, -, h2, -⟩ | ⟨-, h2⟩
    · rw [h2] at h
      cases h
      have h1 : specSimple repo t type g = some l := by
        cases type <;> first | exact absurd rfl hc | exact h1
      unfold specSimple at h1
      split at h1
      · obtain ⟨cs, e, rfl⟩ := Option.map_eq_some_iff.1 h1
        exact ⟨cs, e, pathOf_append _ _ _⟩
      · simp at h1
    · rw [h2] at h; cases h
    · rw [h2] at h; cases h
  obtain ⟨cs, e1, e2⟩ := key g₁ u₁ h₁
  obtain ⟨ds, e3, e4⟩ := key g₂ u₂ h₂
  rw [e1, e2, e3, e4, pathOf_inj (fun c hc => (urlComps_proper e1 c hc).2.1) (fun c hc => (urlComps_proper e3 c hc).2.1),
    Option.some.injEq]

/-- Text, for examples. -/
def txt (s : String) : List Byte := s.toList.map (fun c => BitVec.ofNat 8 c.toNat)

example : uriCreate (txt "/repo") (some (txt "arin")) .rsync none (txt "rsync://a.b.c/d/..///./e.cer") =
    .ok ⟨txt "rsync://a.b.c/d/..///./e.cer", txt "/repo/arin/rsync/a.b.c/e.cer", .rsync⟩ := by decide +kernel
example : uriCreate (txt "/repo") (some (txt "arin")) .rsync none (txt "rsync://a/b/../../c") = .err .inval := by decide +kernel
example : uriCreate (txt "/repo") (some (txt "arin")) .rsync none (txt "rsync://../c") = .err .inval := by decide +kernel
example : uriCreate (txt "/repo") (some (txt "arin")) .https none (txt "rsync://a/c") = .err .notHttps := by decide +kernel
example : urlComps (txt "rsync://a.b.c/d/..///./e.cer") = some [txt "a.b.c", txt "e.cer"] := by decide +kernel

/-! ### C39 -/

/-- Letters, digits, '-' and '_'. -/
def MftChar (c : Byte) : Prop :=
  (0x61 ≤ c ∧ c ≤ 0x7A) ∨ (0x41 ≤ c ∧ c ≤ 0x5A) ∨ (0x30 ≤ c ∧ c ≤ 0x39) ∨ c = 0x2D ∨ c = 0x5F

/-- File names a manifest can have: a stem, a dot, three characters. -/
def MftName (n : List Byte) : Prop :=
  ∃ stem ext, n = stem ++ [dot] ++ ext ∧ stem ≠ [] ∧ ext.length = 3 ∧ (∀ c ∈ stem, MftChar c) ∧ ∀ c ∈ ext, MftChar c

theorem validMftChar_iff (c : Byte) : validMftChar c = true ↔ MftChar c := by
  simp only [validMftChar, MftChar, Bool.or_eq_true, decide_eq_true_eq]
  tauto

theorem mftCharsOk_iff (d : Nat) : ∀ (i : Nat) (l : List Byte), mftCharsOk d i l = true ↔
    ∀ k c, l[k]? = some c → i + k ≠ d → MftChar c := by
  intro i l
  induction l generalizing i with
  | nil => simp [mftCharsOk]
  | cons a l ih =>
    unfold mftCharsOk
    by_cases h : i ≠ d ∧ validMftChar a = false
    · rw [if_pos h]
      simp only [Bool.false_eq_true, false_iff]
      intro hc
      have := hc 0 a rfl (by simpa using h.1)
      rw [← validMftChar_iff, h.2] at this
      cases this
    · rw [if_neg h, ih]
      constructor
      · intro h2 k c hk hd
        cases k with
        | zero =>
          simp only [List.getElem?_cons_zero, Option.some.injEq] at hk
          subst hk
          rw [← validMftChar_iff]
          by_contra hv
          exact h ⟨by simpa using hd, by simpa using hv⟩
        | succ k => exact h2 k c (by simpa using hk) (by omega)
      · intro h2 k c hk hd
        exact h2 (k + 1) c (by simpa using hk) (by omega)

/-- **C39, names.** The accepted file names are exactly the ones with a stem, a dot and a three character extension, made of
letters, digits, '-' and '_'. -/
theorem C39_names (n : List Byte) : (validateMftFile n = .ok () ↔ MftName n) ∧ validateMftFile n ≠ .crash := by
  unfold validateMftFile
  by_cases h5 : n.length < 5
  · rw [if_pos h5]
    refine ⟨⟨(fun h => by cases h), ?_⟩, by simp⟩
    rintro ⟨stem, ext, rfl, hs, he, -, -⟩
    have := List.length_pos_iff.2 hs
    simp only [List.length_append, List.length_cons, List.length_nil] at h5
    omega
  · rw [if_neg h5]
    have hlt : n.length - 4 < n.length := by omega
    simp only [List.getElem?_eq_getElem hlt]
    have hsplit : n = n.take (n.length - 4) ++ [n[n.length - 4]] ++ n.drop (n.length - 4 + 1) := by
      rw [List.append_assoc, List.singleton_append, List.getElem_cons_drop, List.take_append_drop]
    by_cases hd : n[n.length - 4] = dot
    · rw [if_neg (by simpa using hd)]
      have hiff : mftCharsOk (n.length - 4) 0 n = true ↔ MftName n := by
        rw [mftCharsOk_iff]
        constructor
        · intro h
          refine ⟨n.take (n.length - 4), n.drop (n.length - 4 + 1), by rw [← hd]; exact hsplit, ?_, ?_, ?_, ?_⟩
          · intro e
            have := congrArg List.length e
            rw [List.length_take, List.length_nil] at this
            omega
          · rw [List.length_drop]; omega
          · intro c hc
            obtain ⟨k, hk⟩ := List.mem_iff_getElem?.1 hc
            rw [List.getElem?_take] at hk
            split at hk
            · exact h k c hk (by omega)
            · cases hk
          · intro c hc
            obtain ⟨k, hk⟩ := List.mem_iff_getElem?.1 hc
            rw [List.getElem?_drop] at hk
            exact h _ c hk (by omega)
        · rintro ⟨stem, ext, rfl, hs, he, h1, h2⟩ k c hk hne
          have hl : (stem ++ [dot] ++ ext).length - 4 = stem.length := by
            simp only [List.length_append, List.length_cons, List.length_nil]; omega
          rw [hl] at hne
          rw [List.append_assoc, List.getElem?_append] at hk
          split at hk
          · exact h1 c (List.mem_of_getElem? hk)
          · rename_i hge
            rw [List.singleton_append, List.getElem?_cons, if_neg (by omega)] at hk
            exact h2 c (List.mem_of_getElem? hk)
      by_cases hm : mftCharsOk (n.length - 4) 0 n = true
      · rw [if_pos hm]
        exact ⟨⟨fun _ => hiff.1 hm, fun _ => rfl⟩, by simp⟩
      · rw [if_neg hm]
        exact ⟨⟨(fun h => by cases h), fun h => absurd (hiff.2 h) hm⟩, by simp⟩
    · rw [if_pos (by simpa using hd)]
      refine ⟨⟨(fun h => by cases h), ?_⟩, by simp⟩
      rintro ⟨stem, ext, rfl, hs, he, h1, h2⟩
      exfalso
      apply hd
      have hl : (stem ++ [dot] ++ ext).length - 4 = stem.length := by
        simp only [List.length_append, List.length_cons, List.length_nil]; omega
      simp only [hl]
      simp

theorem mftName_noslash {n : List Byte} (h : MftName n) : slash ∉ n := by
  obtain ⟨stem, ext, rfl, -, -, h1, h2⟩ := h
  have hno : ¬ MftChar slash := by unfold MftChar; decide
  intro hm
  rcases List.mem_append.1 hm with hm | hm
  · rcases List.mem_append.1 hm with hm | hm
    · exact hno (h1 _ hm)
    · simp only [List.mem_singleton] at hm; revert hm; decide
  · exact hno (h2 _ hm)

theorem mftName_proper {n : List Byte} (h : MftName n) : Proper n := by
  have hs := mftName_noslash h
  obtain ⟨stem, ext, rfl, h0, h3, h1, h2⟩ := h
  have hl : 5 ≤ (stem ++ [dot] ++ ext).length := by
    have := List.length_pos_iff.2 h0
    simp only [List.length_append, List.length_cons, List.length_nil]; omega
  refine ⟨?_, hs, ?_, ?_⟩ <;> · intro e; rw [e] at hl; revert hl; decide

theorem upToLastSlash_none {l : List Byte} (h : slash ∉ l) : upToLastSlash l = none := by
  induction l with
  | nil => rfl
  | cons c cs ih =>
    rw [List.mem_cons, not_or] at h
    rw [upToLastSlash, ih h.2]
    simp only
    rw [if_neg (fun e => h.1 e.symm)]

theorem upToLastSlash_eq (dir f : List Byte) (h : slash ∉ f) : upToLastSlash (dir ++ [slash] ++ f) = some (dir ++ [slash]) := by
  induction dir with
  | nil => simp [upToLastSlash, upToLastSlash_none h]
  | cons c cs ih =>
    simp only [List.cons_append] at ih ⊢
    rw [upToLastSlash, ih]

theorem last_slash (l : List Byte) (h : slash ∈ l) : ∃ dir f, l = dir ++ [slash] ++ f ∧ slash ∉ f := by
  induction l with
  | nil => simp at h
  | cons c cs ih =>
    by_cases hm : slash ∈ cs
    · obtain ⟨dir, f, rfl, hf⟩ := ih hm
      exact ⟨c :: dir, f, by simp, hf⟩
    · rcases List.mem_cons.1 h with rfl | h
      · exact ⟨[], cs, by simp, hm⟩
      · exact absurd h hm

/-- **C39, URL.** The URL of a listed file is the manifest's URL up to its last slash, and then the name. -/
theorem C39_url (mft n g : List Byte) : ia5str2global mft n = .ok g ↔
    MftName n ∧ ∃ dir f, mft = dir ++ [slash] ++ f ∧ slash ∉ f ∧ g = dir ++ [slash] ++ n := by
  unfold ia5str2global
  rw [bind_eq_ok]
  constructor
  · rintro ⟨⟨⟩, h1, h2⟩
    refine ⟨(C39_names n).1.1 h1, ?_⟩
    by_cases hm : slash ∈ mft
    · obtain ⟨dir, f, rfl, hf⟩ := last_slash mft hm
      rw [upToLastSlash_eq dir f hf] at h2
      cases h2
      exact ⟨dir, f, rfl, hf, rfl⟩
    · rw [upToLastSlash_none hm] at h2
      cases h2
  · rintro ⟨h1, dir, f, rfl, hf, rfl⟩
    refine ⟨(), (C39_names n).1.2 h1, ?_⟩
    rw [upToLastSlash_eq dir f hf]

theorem normalize_snoc (f : List Byte) (hf : Proper f) : ∀ (ss acc : List (List Byte)),
    normalize (ss ++ [f]) acc = (normalize ss acc).map (fun cs => cs ++ [f]) := by
  intro ss
  induction ss with
  | nil =>
    intro acc
    simp [normalize, hf.1, hf.2.2.1, hf.2.2.2]
  | cons s ss ih =>
    intro acc
    simp only [List.cons_append, normalize]
    split
    · exact ih acc
    · split
      · split
        · rfl
        · exact ih _
      · exact ih _

/-- Replacing the file name of a URL replaces the last component. -/
theorem urlComps_sibling {dir f : List Byte} (h8 : 8 ≤ (dir ++ [slash]).length) (hf : Proper f) :
    ∃ o : Option (List (List Byte)), urlComps (dir ++ [slash] ++ f) = o.map (fun ds => ds ++ [f]) ∧
      ∀ n, Proper n → urlComps (dir ++ [slash] ++ n) = o.map (fun ds => ds ++ [n]) := by
  have hdrop : ∀ n : List Byte, (dir ++ [slash] ++ n).drop 8 = (dir ++ [slash]).drop 8 ++ n := fun n =>
    List.drop_append_of_le_length h8
  rcases List.eq_nil_or_concat ((dir ++ [slash]).drop 8) with he | ⟨e, b, he⟩
  · refine ⟨some [], ?_⟩
    have key : ∀ n, Proper n → urlComps (dir ++ [slash] ++ n) = some ([] ++ [n]) := by
      intro n hn
      unfold urlComps
      rw [hdrop, he, List.nil_append]
      have hs : splitSlash n = [n] := by
        rw [splitSlash_next]
        have := splitSlash_pathOf n [] (by simp)
        have h2 := splitSlash_snoc [] n hn.2.1
        simp only [List.nil_append, List.singleton_append, splitSlash, if_true] at h2
        rw [splitSlash_next] at h2
        simpa using h2
      rw [hs]
      simp only
      rw [if_neg (by rintro (h | h | h); exacts [hn.1 h, hn.2.2.1 h, hn.2.2.2 h])]
      simp [normalize, hn.1]
    exact ⟨key f hf, key⟩
  · rw [List.concat_eq_append] at he
    have hb : b = slash := by
      have h2 : (dir ++ [slash]).take 8 ++ (dir ++ [slash]).drop 8 = dir ++ [slash] := List.take_append_drop _ _
      rw [he, ← List.append_assoc] at h2
      exact (List.append_inj' h2 rfl).2 |> fun h => by simpa using h
    subst hb
    have hsp : ∀ n, slash ∉ n → splitSlash ((dir ++ [slash] ++ n).drop 8) = splitSlash e ++ [n] := by
      intro n hn
      rw [hdrop, he, splitSlash_snoc e n hn]
    cases hd : splitSlash e with
    | nil => exact absurd hd (splitSlash_ne e)
    | cons d segs =>
      have key : ∀ n, Proper n → urlComps (dir ++ [slash] ++ n) =
          (if d = [dot] ∨ d = [dot, dot] then none
           else (normalize segs []).map (fun cs => (if d = [] then [] else [d]) ++ cs)).map (fun ds => ds ++ [n]) := by
        intro n hn
        unfold urlComps
        rw [hsp n hn.2.1, hd]
        simp only [List.cons_append]
        have hne : (dir ++ [slash] ++ n).drop 8 ≠ [] := by rw [hdrop, he]; simp
        simp only [hne, false_or]
        split
        · rfl
        · rw [normalize_snoc n hn]
          cases normalize segs [] <;> simp
      exact ⟨_, key f hf, key⟩

theorem prefix_slash_len {p g dir f : List Byte} (hp : p <+: g) (h7 : p[7]? = some slash) (hg : g = dir ++ [slash] ++ f)
    (hf : slash ∉ f) : 8 ≤ (dir ++ [slash]).length := by
  obtain ⟨r, rfl⟩ := hp
  have h1 : (dir ++ [slash] ++ f)[7]? = some slash := by
    rw [← hg, List.getElem?_append_left (List.getElem?_eq_some_iff.1 h7).1, h7]
  by_contra h
  rw [List.getElem?_append_right (by omega)] at h1
  exact hf (List.mem_of_getElem? h1)

/-- **C39.** The file a manifest refers to is next to the manifest in the local cache, under the name the manifest gives:
`m` is the manifest's URI (plain or of an RRDP repository), created the same way, whose file name is not "", "." or "..". -/
theorem C39_sibling {repo t : List Byte} (hr : repo ≠ []) (ht : t ≠ []) (notif : Option Uri) (g : List Byte) (m u : Uri)
    (name : List Byte) (hm : uriCreate repo (some t) (if notif.isNone then .rsync else .caged) notif g = .ok m)
    (hu : uriCreateMft repo (some t) notif m name = .ok u) (dir f : List Byte) (hg : g = dir ++ [slash] ++ f) (hf : Proper f) :
    MftName name ∧ u.global = dir ++ [slash] ++ name ∧
    ∃ D, m.loc = D ++ [slash] ++ f ∧ u.loc = D ++ [slash] ++ name := by
  have hspec : ∃ l, m = ⟨g, l, if notif.isNone then .rsync else .caged⟩ ∧
      specLocal repo t (if notif.isNone then .rsync else .caged) notif g = some l := by
    rcases C37_mapping hr ht (if notif.isNone then .rsync else .caged) notif (by cases notif <;> simp) g with
      ⟨l, -, h1, h2⟩ | ⟨e, -, h2, -⟩ | ⟨-, h2⟩
    · rw [h2] at hm; cases hm; exact ⟨l, rfl, h1⟩
    · rw [h2] at hm; cases hm
    · rw [h2] at hm; cases hm
  obtain ⟨l, rfl, hl⟩ := hspec
  unfold uriCreateMft at hu
  rw [bind_eq_ok] at hu
  obtain ⟨g', h1, h2⟩ := hu
  obtain ⟨hn, dir', f', e1, e2, rfl⟩ := (C39_url _ _ _).1 h1
  simp only at e1
  have hdir : dir' ++ [slash] = dir ++ [slash] := by
    have a := upToLastSlash_eq dir' f' e2
    have b := upToLastSlash_eq dir f hf.2.1
    rw [← e1, hg, b] at a
    simpa using a.symm
  rw [hdir] at h2 h1
  obtain ⟨l', h3, h4⟩ := bind_eq_ok.1 h2
  cases h4
  refine ⟨hn, rfl, ?_⟩
  have hmap : specLocal repo t (if notif.isNone then .rsync else .caged) notif (dir ++ [slash] ++ name) = some l' := by
    cases notif with
    | none =>
      simp only [Option.isNone_none, if_true, autocompleteLocal, specLocal] at h3 ⊢
      rcases mapSimple_spec hr ht .rsync (dir ++ [slash] ++ name) .notRsync (by simp) with ⟨l, h1, h2⟩ | ⟨e, h1, h2, -⟩ | ⟨h1, h2⟩
      · rw [show rsyncPrefix = UriType.rsync.prefix from rfl, h2] at h3; cases h3; exact h1
      · rw [show rsyncPrefix = UriType.rsync.prefix from rfl, h2] at h3; cases h3
      · rw [show rsyncPrefix = UriType.rsync.prefix from rfl, h2] at h3; cases h3
    | some n =>
      simp only [Option.isNone_some, Bool.false_eq_true, if_false, autocompleteLocal, specLocal] at h3 ⊢
      rcases mapCaged_spec hr ht n.global (dir ++ [slash] ++ name) with ⟨l, h1, h2⟩ | ⟨e, h1, h2, -⟩ | ⟨h1, h2⟩
      · rw [h2] at h3; cases h3; exact h1
      · rw [h2] at h3; cases h3
      · rw [h2] at h3; cases h3
  have hnp := mftName_proper hn
  subst hg
  cases notif with
  | none =>
    simp only [Option.isNone_none, if_true, specLocal, specSimple] at hl hmap
    split at hl
    · rename_i hp
      obtain ⟨o, ho, hall⟩ := urlComps_sibling (prefix_slash_len hp rfl rfl hf.2.1) hf
      rw [ho] at hl
      split at hmap
      · rw [hall name hnp] at hmap
        cases o with
        | none => simp at hl
        | some ds =>
          simp only [Option.map_some, Option.some.injEq] at hl hmap
          refine ⟨pathOf repo ([t, UriType.rsync.scheme] ++ ds), ?_, ?_⟩
          · rw [← hl, ← List.append_assoc, pathOf_snoc]
          · rw [← hmap, ← List.append_assoc, pathOf_snoc]
      · simp at hmap
    · simp at hl
  | some n =>
    simp only [Option.isNone_some, Bool.false_eq_true, if_false, specLocal, specCaged] at hl hmap
    split at hl
    · simp at hl
    · rename_i cage hc
      rw [hc] at hmap
      simp only at hmap
      rw [if_neg (by simp)] at hl hmap
      split at hl
      · rename_i hp
        obtain ⟨o, ho, hall⟩ := urlComps_sibling (prefix_slash_len hp rfl rfl hf.2.1) hf
        rw [ho] at hl
        split at hmap
        · rw [hall name hnp] at hmap
          cases o with
          | none => simp at hl
          | some ds =>
            simp only [Option.map_some, Option.some.injEq] at hl hmap
            refine ⟨pathOf cage ds, ?_, ?_⟩
            · rw [← hl, pathOf_snoc]
            · rw [← hmap, pathOf_snoc]
        · simp at hmap
      · simp at hl

/-- A manifest and a file it lists. -/
example : (do
    let m ← uriCreate (txt "/r") (some (txt "t")) .rsync none (txt "rsync://a/b/./c.mft")
    uriCreateMft (txt "/r") (some (txt "t")) none m (txt "d.cer")) =
    .ok ⟨txt "rsync://a/b/./d.cer", txt "/r/t/rsync/a/b/d.cer", .rsync⟩ := by decide +kernel
example : validateMftFile (txt "../x.cer") = .err .inval := by decide +kernel
example : validateMftFile (txt ".cer") = .err .inval := by decide +kernel

/-! ### C40 -/

/-- **C40 does not hold.** Two notifications, two files, one local path: what one repository publishes replaces what the
other one published. -/
theorem C40_refuted : ∃ (n₁ n₂ g₁ g₂ : List Byte) (u₁ u₂ c₁ c₂ : Uri),
    n₁ ≠ n₂ ∧ g₁ ≠ g₂ ∧
    uriCreate (txt "/r") (some (txt "t")) .https none n₁ = .ok u₁ ∧ uriCreate (txt "/r") (some (txt "t")) .https none n₂ = .ok u₂ ∧
    u₁.loc ≠ u₂.loc ∧
    uriCreate (txt "/r") (some (txt "t")) .caged (some u₁) g₁ = .ok c₁ ∧
    uriCreate (txt "/r") (some (txt "t")) .caged (some u₂) g₂ = .ok c₂ ∧ c₁.loc = c₂.loc := by
  refine ⟨txt "https://a/b", txt "https://a/b/c", txt "rsync://c/d/e.cer", txt "rsync://d/e.cer",
    ⟨txt "https://a/b", txt "/r/t/https/a/b", .https⟩, ⟨txt "https://a/b/c", txt "/r/t/https/a/b/c", .https⟩,
    ⟨txt "rsync://c/d/e.cer", txt "/r/t/rrdp/a/b/c/d/e.cer", .caged⟩,
    ⟨txt "rsync://d/e.cer", txt "/r/t/rrdp/a/b/c/d/e.cer", .caged⟩, ?_, ?_, ?_, ?_, ?_, ?_, ?_, ?_⟩ <;> decide +kernel

theorem caged_comps {repo t : List Byte} (hr : repo ≠ []) (ht : t ≠ []) {n c : Uri} {g : List Byte} (hg : g ≠ [])
    (h : uriCreate repo (some t) .caged (some n) g = .ok c) :
    ∃ ns cs, urlComps n.global = some ns ∧ urlComps g = some cs ∧ c.loc = pathOf (pathOf repo [t, rrdpName]) (ns ++ cs) := by
  rcases C37_mapping hr ht .caged (some n) (by simp) g with ⟨l, -, h1, h2⟩ | ⟨e, -, h2, -⟩ | ⟨-, h2⟩
  · rw [h2] at h
    cases h
    simp only [specLocal, specCaged, specCage] at h1
    split at h1
    · simp at h1
    · rename_i cage hc
      split at hc
      · obtain ⟨ns, h3, rfl⟩ := Option.map_eq_some_iff.1 hc
        rw [if_neg hg] at h1
        split at h1
        · obtain ⟨cs, h4, rfl⟩ := Option.map_eq_some_iff.1 h1
          refine ⟨ns, cs, h3, h4, ?_⟩
          simp [pathOf]
        · simp at h1
      · simp at hc
  · rw [h2] at h; cases h
  · rw [h2] at h; cases h

/-- **C40, partial.** Files of two RRDP repositories of a TAL have the same local path exactly when the notification's
components followed by the file's are the same. In particular they are different when neither notification path extends the
other one. What is missing: repositories whose notification paths do extend each other, for which it is false. -/
theorem C40_partial {repo t : List Byte} (hr : repo ≠ []) (ht : t ≠ []) {n₁ n₂ c₁ c₂ : Uri} {g₁ g₂ : List Byte}
    (hg₁ : g₁ ≠ []) (hg₂ : g₂ ≠ []) (h₁ : uriCreate repo (some t) .caged (some n₁) g₁ = .ok c₁)
    (h₂ : uriCreate repo (some t) .caged (some n₂) g₂ = .ok c₂) :
    ∃ ns₁ cs₁ ns₂ cs₂, urlComps n₁.global = some ns₁ ∧ urlComps g₁ = some cs₁ ∧ urlComps n₂.global = some ns₂ ∧
      urlComps g₂ = some cs₂ ∧ (c₁.loc = c₂.loc ↔ ns₁ ++ cs₁ = ns₂ ++ cs₂) ∧
      (¬ ns₁ <+: ns₂ → ¬ ns₂ <+: ns₁ → c₁.loc ≠ c₂.loc) ∧
      (ns₁ = ns₂ → (c₁.loc = c₂.loc ↔ cs₁ = cs₂)) := by
  obtain ⟨ns₁, cs₁, a1, a2, a3⟩ := caged_comps hr ht hg₁ h₁
  obtain ⟨ns₂, cs₂, b1, b2, b3⟩ := caged_comps hr ht hg₂ h₂
  have hp : ∀ {n g : List Byte} {ns cs}, urlComps n = some ns → urlComps g = some cs → ∀ c ∈ ns ++ cs, slash ∉ c := by
    intro n g ns cs h1 h2 c hc
    rcases List.mem_append.1 hc with h | h
    · exact (urlComps_proper h1 c h).2.1
    · exact (urlComps_proper h2 c h).2.1
  have hiff : c₁.loc = c₂.loc ↔ ns₁ ++ cs₁ = ns₂ ++ cs₂ := by
    rw [a3, b3, pathOf_inj (hp a1 a2) (hp b1 b2)]
  refine ⟨ns₁, cs₁, ns₂, cs₂, a1, a2, b1, b2, hiff, ?_, ?_⟩
  · intro h1 h2 he
    rw [hiff] at he
    rcases List.append_eq_append_iff.1 he with ⟨a, rfl, -⟩ | ⟨a, rfl, -⟩
    · exact h1 (List.prefix_append _ _)
    · exact h2 (List.prefix_append _ _)
  · rintro rfl
    rw [hiff]
    exact ⟨List.append_cancel_left, fun e => by rw [e]⟩

/-- **C40, across kinds and TALs.** Files of RRDP repositories never collide with files reached by plain rsync or https
URLs, nor rsync with https, and files of two TALs never collide. -/
theorem C40_kinds {repo t₁ t₂ : List Byte} (hr : repo ≠ []) (ht₁ : IsSeg t₁) (ht₂ : IsSeg t₂) {k₁ k₂ : UriType}
    {n₁ n₂ : Option Uri} (hn₁ : k₁ = .caged → n₁ ≠ none) (hn₂ : k₂ = .caged → n₂ ≠ none) {g₁ g₂ : List Byte} {u₁ u₂ : Uri}
    (h₁ : uriCreate repo (some t₁) k₁ n₁ g₁ = .ok u₁) (h₂ : uriCreate repo (some t₂) k₂ n₂ g₂ = .ok u₂)
    (he : u₁.loc = u₂.loc) : t₁ = t₂ ∧ k₁ = k₂ := by
  obtain ⟨cs, e1, -, -⟩ := C37_confined hr ht₁.1 ht₁.2 k₁ n₁ hn₁ g₁ u₁ h₁
  obtain ⟨ds, e2, -, -⟩ := C37_confined hr ht₂.1 ht₂.2 k₂ n₂ hn₂ g₂ u₂ h₂
  rw [he, e2] at e1
  simp only [List.append_assoc, List.append_cancel_left_eq, List.cons_append, List.nil_append, List.cons.injEq] at e1
  refine ⟨e1.1.symm, ?_⟩
  have := e1.2.1
  cases k₁ <;> cases k₂ <;> first | rfl | (revert this; decide)

example : (do
    let n ← uriCreate (txt "/r") (some (txt "t")) .https none (txt "https://n/x.xml")
    uriCreate (txt "/r") (some (txt "t")) .caged (some n) (txt "rsync://a/b.roa")) =
    .ok ⟨txt "rsync://a/b.roa", txt "/r/t/rrdp/n/x.xml/a/b.roa", .caged⟩ := by decide +kernel

end Verif.Uri
