import Verif.Cache.ModelCleanup
import Verif.Cache.ModuleProps
/-
Lemmas about the cleanup of the cache.
-/
namespace Verif.Cache
open Verif.Res (Byte)
open Verif.Uri

theorem isUnder_iff (d p : List Byte) : isUnder d p = true ↔ Under d p := by
  simp [isUnder, Under]

theorem under_refl (a : List Byte) : Under a a := .inl rfl

theorem under_trans {a b c : List Byte} (h1 : Under a b) (h2 : Under b c) : Under a c := by
  rcases h1 with rfl | h1
  · exact h2
  · rcases h2 with rfl | h2
    · exact .inr h1
    · exact .inr (h1.trans ((List.prefix_append _ _).trans h2))

/-- Two directories of one file: one is in the other. -/
theorem under_total {a b e : List Byte} (h1 : Under a e) (h2 : Under b e) : Under a b ∨ Under b a := by
  rcases h1 with rfl | h1
  · exact .inr h2
  · rcases h2 with rfl | h2
    · exact .inl (.inr h1)
    · rcases List.prefix_or_prefix_of_prefix h1 h2 with h | h
      · rcases List.prefix_concat_iff.1 h with h | h
        · have := List.append_inj h (by have := congrArg List.length h; simp at this; exact this)
          exact .inl (.inl this.1.symm)
        · exact .inl (.inr h)
      · rcases List.prefix_concat_iff.1 h with h | h
        · have := List.append_inj h (by have := congrArg List.length h; simp at this; exact this)
          exact .inr (.inl this.1.symm)
        · exact .inr (.inr h)

theorem related_iff : ∀ f n : List Byte, related f n = true ↔ Under f n ∨ Under n f := by
  intro f
  induction f with
  | nil =>
    intro n
    cases n with
    | nil => simp [related, Under]
    | cons b n =>
      simp only [related, decide_eq_true_eq]
      constructor
      · intro h; subst h; exact .inl (.inr ⟨n, rfl⟩)
      · rintro ((h | ⟨t, h⟩) | (h | ⟨t, h⟩))
        · cases h
        · simp only [List.nil_append, List.cons_append, List.cons.injEq] at h; exact h.1.symm
        · cases h
        · simp at h
  | cons a f ih =>
    intro n
    cases n with
    | nil =>
      simp only [related, decide_eq_true_eq]
      constructor
      · intro h; subst h; exact .inr (.inr ⟨f, rfl⟩)
      · rintro ((h | ⟨t, h⟩) | (h | ⟨t, h⟩))
        · cases h
        · simp at h
        · cases h
        · simp only [List.nil_append, List.cons_append, List.cons.injEq] at h; exact h.1.symm
    | cons b n =>
      simp only [related]
      by_cases h : a = b
      · subst h
        rw [if_pos rfl, ih]
        simp [Under, List.cons_prefix_cons]
      · rw [if_neg h]
        have h' : ¬ b = a := fun e => h e.symm
        simp [Under, List.cons_prefix_cons, h, h']

theorem mem_rmRf {fs : Fs} {p : List Byte} {e : Entry} : e ∈ rmRf fs p ↔ e ∈ fs ∧ ¬ Under p e.path := by
  simp [rmRf, ← isUnder_iff]

/-- The places a node's data is at: its file or directory, and for an RRDP notification also its repository's directory. -/
def Area (repo tal : List Byte) (n : Node) (a : List Byte) : Prop :=
  a = n.url.uri.loc ∨
  n.url.isNotif = true ∧ ∃ cage, uriCreate repo (some tal) .caged (some n.url.uri) [] = .ok cage ∧ a = cage.loc

theorem cageOf_iff {repo tal : List Byte} {u : Url} {a : List Byte} : cageOf repo tal u = some a ↔
    ∃ cage, uriCreate repo (some tal) .caged (some u.uri) [] = .ok cage ∧ a = cage.loc := by
  unfold cageOf
  cases h : uriCreate repo (some tal) .caged (some u.uri) [] <;> simp [eq_comm]

theorem mem_keptPaths {repo tal : List Byte} {n : Node} {a : List Byte} : a ∈ keptPaths repo tal n ↔ Area repo tal n a := by
  unfold keptPaths Area
  rw [← cageOf_iff]
  by_cases hn : n.url.isNotif = true
  · cases h : cageOf repo tal n.url <;> simp [hn, Node.key, eq_comm]
  · simp [hn, Node.key]

/-- What one node's cleanup does. -/
theorem cleanupNode_cases (repo : List Byte) (statFails : List Byte → Bool) (lastWeek : Int) (s : Cache × Fs) (n : Node) :
    (lastWeek < n.attemptTs ∧ (statFails n.key = true ∨ fileExists s.2 n.key = true) ∧
      cleanupNode repo statFails lastWeek s n = s) ∨
    ((n.attemptTs ≤ lastWeek ∨ statFails n.key = false ∧ fileExists s.2 n.key = false) ∧
      (cleanupNode repo statFails lastWeek s n).1 = deleteNode s.1 n ∧
      (∀ e, e ∈ (cleanupNode repo statFails lastWeek s n).2 → e ∈ s.2) ∧
      (∀ e, e ∈ s.2 → e ∉ (cleanupNode repo statFails lastWeek s n).2 → ∃ a, Area repo s.1.tal n a ∧ Under a e.path) ∧
      (∀ a, Area repo s.1.tal n a → (a = n.key → statFails n.key = true ∨ fileExists s.2 n.key = true) →
        ∀ e, e ∈ (cleanupNode repo statFails lastWeek s n).2 → ¬ Under a e.path)) := by
  have dn : ∀ fs : Fs,
      (deleteNodeAndCage repo s.1 fs n).1 = deleteNode s.1 n ∧
      ∀ e, e ∈ (deleteNodeAndCage repo s.1 fs n).2 ↔ e ∈ fs ∧
        ¬ (n.url.isNotif = true ∧ ∃ a, cageOf repo s.1.tal n.url = some a ∧ Under a e.path) := by
    intro fs
    unfold deleteNodeAndCage
    refine ⟨rfl, fun e => ?_⟩
    by_cases hn : n.url.isNotif = true
    · cases h : cageOf repo s.1.tal n.url with
      | none => simp [hn]
      | some a => simp [hn, mem_rmRf]
    · simp [hn]
  unfold cleanupNode
  by_cases h1 : statFails n.key = false ∧ fileExists s.2 n.key = false
  · rw [if_pos h1]
    obtain ⟨d1, d2⟩ := dn s.2
    refine .inr ⟨.inr h1, d1, fun e he => ((d2 e).1 he).1, fun e he hne => ?_, fun a ha hx e he hu => ?_⟩
    · by_cases hc : n.url.isNotif = true ∧ ∃ a, cageOf repo s.1.tal n.url = some a ∧ Under a e.path
      · obtain ⟨hn, a, ha, hu⟩ := hc
        exact ⟨a, .inr ⟨hn, cageOf_iff.1 ha⟩, hu⟩
      · exact absurd ((d2 e).2 ⟨he, hc⟩) hne
    · rcases ha with ha | ⟨hn, hc⟩
      · rcases hx ha with hx | hx
        · rw [h1.1] at hx; cases hx
        · rw [h1.2] at hx; cases hx
      · exact ((d2 e).1 he).2 ⟨hn, a, cageOf_iff.2 hc, hu⟩
  · rw [if_neg h1]
    by_cases h2 : lastWeek < n.attemptTs
    · rw [if_pos (by simp [isNodeFresh]; omega)]
      refine .inl ⟨h2, ?_, rfl⟩
      cases ha : statFails n.key
      · cases hb : fileExists s.2 n.key
        · exact absurd ⟨ha, hb⟩ h1
        · exact .inr rfl
      · exact .inl rfl
    · rw [if_neg (by simp [isNodeFresh]; omega)]
      obtain ⟨d1, d2⟩ := dn (rmRf s.2 n.key)
      refine .inr ⟨.inl (by omega), d1, fun e he => (mem_rmRf.1 ((d2 e).1 he).1).1, fun e he hne => ?_, fun a ha _ e he hu => ?_⟩
      · by_cases hc : n.url.isNotif = true ∧ ∃ a, cageOf repo s.1.tal n.url = some a ∧ Under a e.path
        · obtain ⟨hn, a, ha, hu⟩ := hc
          exact ⟨a, .inr ⟨hn, cageOf_iff.1 ha⟩, hu⟩
        · by_cases hu : Under n.key e.path
          · exact ⟨n.key, .inl rfl, hu⟩
          · exact absurd ((d2 e).2 ⟨mem_rmRf.2 ⟨he, hu⟩, hc⟩) hne
      · have := (d2 e).1 he
        rcases ha with ha | ⟨hn, hc⟩
        · rw [ha] at hu
          exact (mem_rmRf.1 this.1).2 hu
        · exact this.2 ⟨hn, a, cageOf_iff.2 hc, hu⟩

theorem cleanupNode_tal (repo : List Byte) (statFails : List Byte → Bool) (lastWeek : Int) (s : Cache × Fs) (n : Node) :
    (cleanupNode repo statFails lastWeek s n).1.tal = s.1.tal := by
  rcases cleanupNode_cases repo statFails lastWeek s n with ⟨-, -, h⟩ | ⟨-, h, -⟩
  · rw [h]
  · rw [h]; rfl

theorem foldl_deleteIfUnknown (dnc : List (List Byte)) : ∀ (l : List Entry) (fs : Fs) (e : Entry),
    (e ∈ l.foldl (deleteIfUnknown dnc) fs → e ∈ fs) ∧
    (e ∈ fs → e ∉ l.foldl (deleteIfUnknown dnc) fs → e ∈ l ∧ isCached dnc e.path = false) ∧
    (e ∈ l → e.isDir = false → isCached dnc e.path = false → e ∉ l.foldl (deleteIfUnknown dnc) fs) := by
  intro l
  induction l with
  | nil => intro fs e; simp
  | cons x l ih =>
    intro fs e
    rw [List.foldl_cons]
    obtain ⟨i1, i2, i3⟩ := ih (deleteIfUnknown dnc fs x) e
    have h1 : e ∈ deleteIfUnknown dnc fs x → e ∈ fs := by
      unfold deleteIfUnknown removeEntry
      split
      · exact id
      · split
        · exact id
        · intro h; exact (List.mem_filter.1 h).1
    have h2 : e ∈ fs → e ∉ deleteIfUnknown dnc fs x → e = x ∧ isCached dnc e.path = false := by
      unfold deleteIfUnknown removeEntry
      intro he
      split
      · intro h; exact absurd he h
      · rename_i hc
        split
        · intro h; exact absurd he h
        · intro h
          by_cases hx : e = x
          · exact ⟨hx, by rw [hx]; simpa using hc⟩
          · exact absurd (List.mem_filter.2 ⟨he, by simpa using hx⟩) h
    refine ⟨fun h => h1 (i1 h), fun he hne => ?_, fun hl hd hc => ?_⟩
    · by_cases hm : e ∈ deleteIfUnknown dnc fs x
      · obtain ⟨a, b⟩ := i2 hm hne
        exact ⟨List.mem_cons_of_mem _ a, b⟩
      · obtain ⟨rfl, b⟩ := h2 he hm
        exact ⟨List.mem_cons_self, b⟩
    · rcases List.mem_cons.1 hl with rfl | hl
      · intro h
        have := i1 h
        unfold deleteIfUnknown removeEntry at this
        rw [hc, if_neg (by simp), if_neg (by simp [hd])] at this
        simpa using (List.mem_filter.1 this).2
      · exact i3 hl hd hc

/-- The second half of the cleanup. -/
theorem deleteUnknown_spec {repo : List Byte} (hr : repo ≠ []) (c : Cache) (ht : c.tal ≠ []) (fs : Fs) (e : Entry) :
    (e ∈ deleteUnknownFiles repo c fs → e ∈ fs) ∧
    (e ∈ fs → e ∉ deleteUnknownFiles repo c fs → Under (pathOf repo [c.tal]) e.path ∧
      ∀ a, a = pathOf repo [c.tal, talJson] ∨ (∃ n ∈ c.nodes, Area repo c.tal n a) → ¬ Under a e.path ∧ ¬ Under e.path a) ∧
    (e ∈ deleteUnknownFiles repo c fs → e.isDir = false → Under (pathOf repo [c.tal]) e.path →
      (pathOf repo [c.tal, talJson]).length < maxCapacity →
      ∃ a, (a = pathOf repo [c.tal, talJson] ∨ ∃ n ∈ c.nodes, Area repo c.tal n a) ∧ (Under a e.path ∨ Under e.path a)) := by
  unfold deleteUnknownFiles
  rcases pbInitCache_some hr ht (sub := talJson) (by decide) with ⟨pb, h, hi, hs⟩ | ⟨h, hl⟩
  · rw [h]
    have hs' : pb.str = pathOf repo [c.tal] ++ [slash] ++ talJson := by rw [hs]; simp [pathOf]
    obtain ⟨pb', h', -, hs2⟩ := pbPop_spec hi (by simp [pathOf]) (by decide) hs' true
    simp only [h', hs2, hs]
    obtain ⟨f1, f2, f3⟩ := foldl_deleteIfUnknown (pathOf repo [c.tal, talJson] :: c.nodes.flatMap (keptPaths repo c.tal))
      (fs.filter (fun e => isUnder (pathOf repo [c.tal]) e.path)) fs e
    have cached : isCached (pathOf repo [c.tal, talJson] :: c.nodes.flatMap (keptPaths repo c.tal)) e.path = true ↔
        ∃ a, (a = pathOf repo [c.tal, talJson] ∨ ∃ n ∈ c.nodes, Area repo c.tal n a) ∧ (Under a e.path ∨ Under e.path a) := by
      unfold isCached
      rw [List.any_eq_true]
      constructor
      · rintro ⟨a, ha, hrel⟩
        refine ⟨a, ?_, (related_iff _ _).1 hrel |>.symm⟩
        rcases List.mem_cons.1 ha with ha | ha
        · exact .inl ha
        · obtain ⟨n, hn, hk⟩ := List.mem_flatMap.1 ha
          exact .inr ⟨n, hn, mem_keptPaths.1 hk⟩
      · rintro ⟨a, ha, hrel⟩
        refine ⟨a, ?_, (related_iff _ _).2 hrel.symm⟩
        rcases ha with ha | ⟨n, hn, hk⟩
        · exact List.mem_cons.2 (.inl ha)
        · exact List.mem_cons.2 (.inr (List.mem_flatMap.2 ⟨n, hn, mem_keptPaths.2 hk⟩))
    refine ⟨f1, fun he hne => ?_, fun he hd hu _ => ?_⟩
    · obtain ⟨a, b⟩ := f2 he hne
      refine ⟨(isUnder_iff _ _).1 (by simpa using (List.mem_filter.1 a).2), fun x hx => ?_⟩
      rw [← Bool.not_eq_true, cached] at b
      exact ⟨fun h => b ⟨x, hx, .inl h⟩, fun h => b ⟨x, hx, .inr h⟩⟩
    · rw [← cached]
      by_contra hc
      rw [Bool.not_eq_true] at hc
      exact f3 (List.mem_filter.2 ⟨f1 he, (isUnder_iff _ _).2 hu⟩) hd hc he
  · rw [h]
    exact ⟨id, fun a b => absurd a b, fun _ _ _ h' => absurd hl (by omega)⟩

end Verif.Cache
