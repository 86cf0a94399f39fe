import Verif.Uri.UriLemmas
/-
The mapping from URLs to files, case by case.
-/
namespace Verif.Uri
open Verif.Res (Byte)

theorem pbAppend_path {pb : PB} (hi : pb.Inv) {B : List Byte} (hB : B ≠ []) {cs : List (List Byte)} (hs : pb.str = pathOf B cs)
    {c : List Byte} (hc : c ≠ []) :
    (∃ pb', pbAppend pb (some c) = .ok pb' ∧ pb'.Inv ∧ pb'.str = pathOf B (cs ++ [c])) ∨
    (pbAppend pb (some c) = .err .nospc ∧ maxCapacity ≤ (pathOf B (cs ++ [c])).length) := by
  have hlen : pb.len = (pathOf B cs).length := by rw [← str_length hi, hs]
  have hpos : pb.len ≠ 0 := by rw [hlen]; simp [pathOf, hB]
  have := pbAppend_seg hi hc
  rw [if_neg hpos, if_neg hpos] at this
  rw [pathOf_length_snoc, ← hlen]
  split at this
  · exact .inr ⟨this, by omega⟩
  · obtain ⟨pb', e, hi', hs'⟩ := this
    exact .inl ⟨pb', e, hi', by rw [hs', hs, pathOf_snoc]⟩

theorem pbInit_repo {repo : List Byte} (hr : repo ≠ []) :
    (∃ pb, pbAppend pbInit (some repo) = .ok pb ∧ pb.Inv ∧ pb.str = pathOf repo []) ∨
    (pbAppend pbInit (some repo) = .err .nospc ∧ maxCapacity ≤ repo.length) := by
  have := pbAppend_seg pbInit_inv hr
  have h0 : pbInit.len = 0 := rfl
  rw [if_pos h0, if_pos h0] at this
  split at this
  · rename_i h
    refine .inr ⟨this, ?_⟩
    have : pbInit.len = 0 := rfl
    omega
  · obtain ⟨pb', e, hi', hs'⟩ := this
    exact .inl ⟨pb', e, hi', by rw [hs']; simp [PB.str, pbInit, pathOf]⟩

theorem pathOf_length_mono (b : List Byte) (cs ds : List (List Byte)) : (pathOf b cs).length ≤ (pathOf b (cs ++ ds)).length := by
  rw [pathOf_append]; simp [pathOf]

theorem pbInitCache_none {repo t : List Byte} (hr : repo ≠ []) (ht : t ≠ []) :
    (∃ pb, pbInitCache repo (some t) none = .ok pb ∧ pb.Inv ∧ pb.str = pathOf repo [t]) ∨
    (pbInitCache repo (some t) none = .err .nospc ∧ maxCapacity ≤ (pathOf repo [t]).length) := by
  unfold pbInitCache
  rcases pbInit_repo hr with ⟨pb, e, hi, hs⟩ | ⟨e, h⟩
  · rw [e, ok_bind]
    rcases pbAppend_path hi hr hs ht with ⟨pb', e', hi', hs'⟩ | ⟨e', h'⟩
    · rw [e', ok_bind]
      exact .inl ⟨pb', rfl, hi', hs'⟩
    · rw [e', err_bind]
      exact .inr ⟨rfl, h'⟩
  · rw [e, err_bind]
    exact .inr ⟨rfl, by simp only [pathOf, List.length_append]; omega⟩

theorem pbInitCache_some {repo t sub : List Byte} (hr : repo ≠ []) (ht : t ≠ []) (hsub : sub ≠ []) :
    (∃ pb, pbInitCache repo (some t) (some sub) = .ok pb ∧ pb.Inv ∧ pb.str = pathOf repo [t, sub]) ∨
    (pbInitCache repo (some t) (some sub) = .err .nospc ∧ maxCapacity ≤ (pathOf repo [t, sub]).length) := by
  have hd : pbInitCache repo (some t) (some sub) = (pbInitCache repo (some t) none >>= fun pb => pbAppend pb (some sub)) := by
    simp only [pbInitCache]
    cases pbAppend pbInit (some repo) with
    | ok pb => simp only [ok_bind]; cases pbAppend pb (some t) <;> simp [pbAppend]
    | err e => simp
    | crash => simp
  rw [hd]
  rcases pbInitCache_none hr ht with ⟨pb, e, hi, hs⟩ | ⟨e, h⟩
  · rw [e, ok_bind]
    exact pbAppend_path hi hr hs hsub
  · rw [e, err_bind]
    exact .inr ⟨rfl, le_trans h (pathOf_length_mono repo [t] [sub])⟩

theorem startsWith_iff {g p : List Byte} : startsWith g p = true ↔ p <+: g := by
  unfold startsWith; exact List.isPrefixOf_iff_prefix

theorem take_of_prefix {g p : List Byte} (h : p <+: g) (n : Nat) (hn : n ≤ p.length) : g.take n = p.take n := by
  obtain ⟨r, rfl⟩ := h
  rw [List.take_append_of_le_length hn]

theorem mapSimple_spec {repo t : List Byte} (hr : repo ≠ []) (ht : t ≠ []) (type : UriType) (g : List Byte) (er : Err)
    (her : er ≠ .nospc) :
    (∃ l, specSimple repo t type g = some l ∧ mapSimple repo (some t) g type.prefix er = .ok l) ∨
    (∃ e, specSimple repo t type g = none ∧ mapSimple repo (some t) g type.prefix er = .err e ∧ e ≠ .nospc) ∨
    (maxCapacity ≤ (pathOf repo [t]).length + g.length ∧ mapSimple repo (some t) g type.prefix er = .err .nospc) := by
  unfold mapSimple specSimple
  have h8 : type.prefix.length = 8 := by cases type <;> rfl
  rcases pbInitCache_none hr ht with ⟨pb, e, hi, hs⟩ | ⟨e, h⟩
  · rw [e, ok_bind]
    by_cases hp : type.prefix <+: g
    · rw [if_pos hp]
      have hlen : pb.len = (pathOf repo [t]).length := by rw [← str_length hi, hs]
      have hgl : 8 ≤ g.length := h8 ▸ hp.length_le
      have hpos : pb.len ≠ 0 := by rw [hlen]; simp [pathOf]
      have ha := pbAppendn_spec hi (src := g ++ [0]) (n := 5) (by decide)
        (by simp only [List.length_append, List.length_cons, List.length_nil]; omega)
      rw [if_neg hpos, if_neg hpos] at ha
      have hsplit : appendGuri pb g type.prefix er false = (pbAppendn pb (g ++ [0]) 5 >>= fun pb' =>
          appendGuri pb' g type.prefix er true) := by
        unfold appendGuri
        rw [startsWith_iff.2 hp]
        simp only [Bool.true_eq_false, if_false, if_true, ok_bind, Bool.false_eq_true]
      rw [hsplit]
      split at ha
      · right; right
        rw [ha]
        exact ⟨by omega, rfl⟩
      · obtain ⟨pb', e', hi', hs'⟩ := ha
        rw [e', ok_bind]
        have hsch : (g ++ [0]).take 5 = type.scheme := by
          rw [List.take_append_of_le_length (by omega), take_of_prefix hp 5 (by omega)]
          rfl
        have hs' : pb'.str = pathOf repo [t] ++ [slash] ++ type.scheme := by rw [hs', hsch, hs]
        have hne : pathOf repo [t] ≠ [] := by simp [pathOf]
        have hns : slash ∉ type.scheme := by cases type <;> decide
        have hlen' : pb'.len = pb.len + 6 := by
          rw [← str_length hi', hs', hlen]
          have : type.scheme.length = 5 := by cases type <;> rfl
          simp only [List.length_append, List.length_cons, List.length_nil]; omega
        rcases appendGuri_skip hne hns hi' hs' g type.prefix (startsWith_iff.2 hp) er with
          ⟨pb'', cs, e1, e2, e3, e4⟩ | ⟨e1, e2⟩ | ⟨e1, e2⟩
        · left
          refine ⟨_, by rw [e2]; rfl, ?_⟩
          rw [e1, ok_bind, e4]
          simp [pathOf]
        · right; left
          exact ⟨_, by rw [e2]; rfl, by rw [e1]; rfl, by simp⟩
        · right; right
          rw [e1]
          refine ⟨?_, rfl⟩
          rw [List.length_drop] at e2
          omega
    · right; left
      rw [if_neg hp]
      refine ⟨er, rfl, ?_, her⟩
      unfold appendGuri
      have : startsWith g type.prefix = false := by
        rw [← Bool.not_eq_true, startsWith_iff]; exact hp
      rw [this]; rfl
  · right; right
    rw [e]
    exact ⟨by omega, rfl⟩

theorem specCage_tail {repo t notif cage : List Byte} (h : specCage repo t notif = some cage) :
    ∃ s c, cage = s ++ [slash] ++ c ∧ s ≠ [] ∧ slash ∉ c := by
  unfold specCage at h
  split at h
  · obtain ⟨ns, hn, rfl⟩ := Option.map_eq_some_iff.1 h
    have hp := urlComps_proper hn
    rcases List.eq_nil_or_concat ns with rfl | ⟨ms, m, rfl⟩
    · exact ⟨pathOf repo [t], rrdpName, by simp [pathOf], by simp [pathOf], by decide⟩
    · refine ⟨pathOf repo ([t, rrdpName] ++ ms), m, ?_, by simp [pathOf], (hp m (by simp)).2.1⟩
      rw [List.concat_eq_append, ← List.append_assoc, pathOf_snoc]
  · simp at h

theorem getRrdpWorkspace_spec {repo t : List Byte} (hr : repo ≠ []) (ht : t ≠ []) (notif : List Byte) :
    (∃ pb cage, specCage repo t notif = some cage ∧ getRrdpWorkspace repo (some t) notif = .ok pb ∧ pb.Inv ∧ pb.str = cage ∧
      cage.length ≤ (pathOf repo [t]).length + notif.length) ∨
    (∃ e, specCage repo t notif = none ∧ getRrdpWorkspace repo (some t) notif = .err e ∧ e ≠ .nospc) ∨
    (maxCapacity ≤ (pathOf repo [t]).length + 5 + notif.length ∧ getRrdpWorkspace repo (some t) notif = .err .nospc) := by
  unfold getRrdpWorkspace specCage
  have hc5 : (pathOf repo [t, rrdpName]).length = (pathOf repo [t]).length + 5 := by
    have := pathOf_length_snoc repo [t] rrdpName
    simpa [rrdpName] using this
  rcases pbInitCache_some hr ht (sub := rrdpName) (by decide) with ⟨pb, e, hi, hs⟩ | ⟨e, h⟩
  · rw [e, ok_bind]
    have hlen : pb.len = (pathOf repo [t]).length + 5 := by rw [← str_length hi, hs, hc5]
    by_cases hp : httpsPrefix <+: notif
    · rw [if_pos hp]
      have h8 : 8 ≤ notif.length := hp.length_le
      rcases appendGuri_skip (s := pathOf repo [t]) (c := rrdpName) (by simp [pathOf]) (by decide) hi
          (by rw [hs]; simp [pathOf]) notif httpsPrefix (startsWith_iff.2 hp) .notHttps with
        ⟨pb', ns, e1, e2, e3, e4⟩ | ⟨e1, e2⟩ | ⟨e1, e2⟩
      · left
        refine ⟨pb', _, by rw [e2]; rfl, e1, e3, by rw [e4]; simp [pathOf], ?_⟩
        -- length: the URL's components are not longer than the URL
        have hsz : (pathOf [] ns).length ≤ (notif.drop 8).length + 1 := urlComps_len e2
        rw [List.length_drop] at hsz
        have h1 : (pathOf repo ([t, rrdpName] ++ ns)).length = (pathOf repo [t, rrdpName]).length + (pathOf [] ns).length := by
          rw [pathOf_append]; simp only [pathOf, List.length_append, List.length_nil]; omega
        rw [h1, hc5]
        omega
      · right; left
        exact ⟨_, by rw [e2]; rfl, e1, by simp⟩
      · right; right
        refine ⟨?_, e1⟩
        rw [List.length_drop] at e2
        omega
    · right; left
      rw [if_neg hp]
      refine ⟨.notHttps, rfl, ?_, by simp⟩
      unfold appendGuri
      have : startsWith notif httpsPrefix = false := by
        rw [← Bool.not_eq_true, startsWith_iff]; exact hp
      rw [this]; rfl
  · right; right
    rw [e]
    exact ⟨by omega, rfl⟩

theorem mapCaged_spec {repo t : List Byte} (hr : repo ≠ []) (ht : t ≠ []) (notif g : List Byte) :
    (∃ l, specCaged repo t notif g = some l ∧ mapCaged repo (some t) g notif = .ok l) ∨
    (∃ e, specCaged repo t notif g = none ∧ mapCaged repo (some t) g notif = .err e ∧ e ≠ .nospc) ∨
    (maxCapacity ≤ (pathOf repo [t]).length + 5 + notif.length + g.length ∧ mapCaged repo (some t) g notif = .err .nospc) := by
  unfold mapCaged specCaged
  rcases getRrdpWorkspace_spec hr ht notif with ⟨pb, cage, e1, e2, hi, hs, hl⟩ | ⟨e, e1, e2, e3⟩ | ⟨e1, e2⟩
  · rw [e2, ok_bind, e1]
    simp only
    by_cases hg : g = []
    · rw [if_pos hg, if_pos hg]
      exact .inl ⟨_, rfl, by rw [hs]⟩
    · rw [if_neg hg, if_neg hg]
      by_cases hp : rsyncPrefix <+: g
      · rw [if_pos hp]
        have h8 : 8 ≤ g.length := hp.length_le
        obtain ⟨s, c, hsc, h1, h2⟩ := specCage_tail e1
        rcases appendGuri_skip h1 h2 hi (by rw [hs, hsc]) g rsyncPrefix (startsWith_iff.2 hp) .notRsync with
          ⟨pb', cs, e1, e2, e3, e4⟩ | ⟨e1, e2⟩ | ⟨e1, e2⟩
        · left
          refine ⟨_, by rw [e2]; rfl, ?_⟩
          rw [e1, ok_bind, e4, hsc]
        · right; left
          exact ⟨_, by rw [e2]; rfl, by rw [e1]; rfl, by simp⟩
        · right; right
          rw [e1]
          refine ⟨?_, rfl⟩
          rw [List.length_drop, ← str_length hi, hs] at e2
          omega
      · rw [if_neg hp]
        right; left
        refine ⟨.notRsync, rfl, ?_, by simp⟩
        unfold appendGuri
        have : startsWith g rsyncPrefix = false := by
          rw [← Bool.not_eq_true, startsWith_iff]; exact hp
        rw [this]; rfl
  · right; left
    rw [e2, e1]
    exact ⟨e, rfl, rfl, e3⟩
  · right; right
    rw [e2]
    exact ⟨by omega, rfl⟩

end Verif.Uri
