import Verif.Cache.CleanupLemmas
/-
C75 (the cleanup keeps what is fresh), C76 (the index file), C77 (what the cleanup deletes).
-/
namespace Verif.Cache
open Verif.Res (Byte)
open Verif.Uri
open Verif.Slurm (Json)

/-- The URL of the node was accepted by the URI module: what the index file's reader and the downloader add. -/
def Made (repo tal : List Byte) (n : Node) : Prop :=
  n.url.uri.type ≠ .caged ∧ uriCreate repo (some tal) n.url.uri.type none n.url.uri.global = .ok n.url.uri

/-! ### Caches that come up -/

theorem uriCreate_fields {repo t : List Byte} {type : UriType} {notif : Option Uri} {g : List Byte} {u : Uri}
    (h : uriCreate repo (some t) type notif g = .ok u) : u.global = g ∧ u.type = type := by
  unfold uriCreate at h
  obtain ⟨g', hg, h⟩ := bind_eq_ok.1 h
  obtain ⟨l, -, h⟩ := bind_eq_ok.1 h
  cases h
  refine ⟨?_, rfl⟩
  rw [str2global] at hg
  split at hg
  · cases hg; rfl
  · cases hg

theorem json2node_made {env : TimeEnv} {repo tal : List Byte} {o : Json} {n : Node} (h : json2node env repo tal o = some n) :
    Made repo tal n := by
  unfold json2node at h
  split at h <;> try (cases h; done)
  rename_i url _
  simp only at h
  split at h <;> try (cases h; done)
  rename_i type htype
  split at h <;> try (cases h; done)
  split at h <;> try (cases h; done)
  rename_i u hu
  split at h <;> try (cases h; done)
  split at h <;> try (cases h; done)
  split at h <;> cases h
  obtain ⟨h1, h2⟩ := uriCreate_fields hu
  refine ⟨?_, by rw [h1, h2]; exact hu⟩
  simp only [h2]
  intro hc
  subst hc
  revert htype
  split
  · intro h; cases h
  · split <;> intro h <;> cases h

/-- What the reader of the index adds was made by the URI module. -/
theorem create_made {env : TimeEnv} {repo tal : List Byte} {now : Int} {index : Option Json} :
    ∀ n ∈ (cacheCreate env repo tal now index).nodes, Made repo tal n := by
  intro n hn
  unfold cacheCreate at hn
  cases index with
  | none => cases hn
  | some j =>
    simp only [loadTalJson] at hn
    cases j <;> simp only [List.not_mem_nil, List.mem_filterMap] at hn
    obtain ⟨o, -, ho⟩ := hn
    exact json2node_made ho

theorem update_made {repo tal : List Byte} {c : Cache} {n n' : Node} (hu : n'.url = n.url)
    (hc : ∀ n ∈ c.nodes, Made repo tal n) (hk : (c.nodes.map Node.key).Nodup) (hn : n ∈ c.nodes) :
    (∀ n ∈ (updateNode c n').nodes, Made repo tal n) ∧ ((updateNode c n').nodes.map Node.key).Nodup := by
  constructor
  · intro m hm
    simp only [updateNode, List.mem_map] at hm
    obtain ⟨m', hm', rfl⟩ := hm
    by_cases e : m'.key = n'.key
    · rw [if_pos e]
      have := hc n hn
      unfold Made at *
      rw [hu]; exact this
    · rw [if_neg e]; exact hc m' hm'
  · simp only [updateNode, List.map_map]
    convert hk using 1
    apply List.map_congr_left
    intro m _
    simp only [Function.comp]
    by_cases e : m.key = n'.key
    · rw [if_pos e]; exact e.symm
    · rw [if_neg e]

/-- Downloads keep it so, and keep the local paths of the nodes different. -/
theorem download_made {cfg : Cfg} {repo : List Byte} {c : Cache} {u : Url} {resp : Op → Url → Resp} {d : Dl}
    (h : cacheDownload cfg repo c u resp = some d)
    (hu : u.uri.type ≠ .caged → uriCreate repo (some c.tal) u.uri.type none u.uri.global = .ok u.uri)
    (hc : ∀ n ∈ c.nodes, Made repo c.tal n) (hk : (c.nodes.map Node.key).Nodup) :
    d.cache.tal = c.tal ∧ (∀ n ∈ d.cache.nodes, Made repo c.tal n) ∧ (d.cache.nodes.map Node.key).Nodup := by
  have step : ∀ (c' : Cache) (n : Node) d, (∀ n ∈ c'.nodes, Made repo c'.tal n) → (c'.nodes.map Node.key).Nodup → n ∈ c'.nodes →
      fetch cfg c' n resp = some d →
      d.cache.tal = c'.tal ∧ (∀ n ∈ d.cache.nodes, Made repo c'.tal n) ∧ (d.cache.nodes.map Node.key).Nodup := by
    intro c' n d hc hk hn h
    unfold fetch at h
    simp only at h
    split at h
    · cases h
    · split at h
      · cases h
      · cases h
        exact ⟨rfl, update_made (n := n) rfl hc hk hn⟩
  unfold cacheDownload at h
  split at h
  · cases h
  · cases h; exact ⟨rfl, hc, hk⟩
  · rename_i url hurl
    split at h
    · rename_i n hn
      split at h
      · cases h; exact ⟨rfl, hc, hk⟩
      · exact step c n d hc hk (find_mem hn) h
    · rename_i hn
      have hnew : fetch cfg (addNode c ⟨url, 0, 0, none⟩) ⟨url, 0, 0, none⟩ resp = some d := h
      have hct : url.uri.type ≠ .caged := by
        intro e
        simp [fetch, e] at hnew
      have hmade : Made repo c.tal ⟨url, 0, 0, none⟩ := by
        refine ⟨hct, ?_⟩
        unfold getUrl at hurl
        split at hurl
        · cases hurl; exact hu hct
        · split at hurl
          · obtain ⟨v, hv, hurl⟩ := bind_eq_ok.1 hurl
            cases hurl
            obtain ⟨h1, h2⟩ := uriCreate_fields hv
            simp only [h1, h2]; exact hv
          · split at hurl
            · obtain ⟨v, hv, hurl⟩ := bind_eq_ok.1 hurl
              cases hurl
              obtain ⟨h1, h2⟩ := uriCreate_fields hv
              simp only [h1, h2]; exact hv
            · cases hurl
      refine step (addNode c ⟨url, 0, 0, none⟩) ⟨url, 0, 0, none⟩ d ?_ ?_ ?_ hnew
      · intro m hm
        simp only [addNode, List.mem_append, List.mem_singleton] at hm
        rcases hm with hm | rfl
        · exact hc m hm
        · exact hmade
      · simp only [addNode, List.map_append, List.map_cons, List.map_nil]
        rw [List.nodup_append]
        refine ⟨hk, by simp, ?_⟩
        intro a ha b hb
        simp only [List.mem_singleton] at hb
        subst hb
        obtain ⟨m, hm, rfl⟩ := List.mem_map.1 ha
        intro e
        have := List.find?_eq_none.1 hn m hm
        simp only [decide_eq_true_eq] at this
        exact this e
      · simp [addNode]

/-! ### C75 -/

/-- The file system has the directories its entries are in, from this directory on. -/
def Closed (root : List Byte) (fs : Fs) : Prop :=
  ∀ e ∈ fs, ∀ d, Under root d → (d ++ [slash]) <+: e.path → ∃ x ∈ fs, x.path = d

/-- **C75 does not hold.** `https://a/b/c` was downloaded recently. `https://a/b` could not be downloaded, and was last tried
more than a week ago. The cleanup deletes the former's data. -/
theorem C75_refuted : ∃ (c : Cache) (fs : Fs) (n m : Node) (e : Entry),
    (∀ n ∈ c.nodes, Made (txt "/r") c.tal n) ∧ (c.nodes.map Node.key).Nodup ∧ Closed (pathOf (txt "/r") [c.tal]) fs ∧
    n ∈ c.nodes ∧ n.url.uri.global = txt "https://a/b/c" ∧ 100 < n.attemptTs ∧ n.success = some n.attemptTs ∧
    m ∈ c.nodes ∧ m.url.uri.global = txt "https://a/b" ∧ m.attemptTs = 50 ∧ m.success = none ∧
    fileExists fs n.key = true ∧ e ∈ fs ∧ (∃ a, Area (txt "/r") c.tal n a ∧ Under a e.path) ∧
    n ∉ (cacheCleanup (txt "/r") (fun _ => false) 100 c fs).1.nodes ∧
    e ∉ (cacheCleanup (txt "/r") (fun _ => false) 100 c fs).2 := by
  let n : Node := ⟨⟨⟨txt "https://a/b/c", txt "/r/t/https/a/b/c", .https⟩, true⟩, 150, 0, some 150⟩
  let m : Node := ⟨⟨⟨txt "https://a/b", txt "/r/t/https/a/b", .https⟩, true⟩, 50, -22, none⟩
  let c : Cache := ⟨txt "t", [m, n], 0⟩
  let fs : Fs := [⟨txt "/r/t", true⟩, ⟨txt "/r/t/https", true⟩, ⟨txt "/r/t/https/a", true⟩, ⟨txt "/r/t/https/a/b", true⟩,
    ⟨txt "/r/t/https/a/b/c", false⟩, ⟨txt "/r/t/rrdp", true⟩, ⟨txt "/r/t/rrdp/a", true⟩, ⟨txt "/r/t/rrdp/a/b", true⟩,
    ⟨txt "/r/t/rrdp/a/b/c", true⟩, ⟨txt "/r/t/rrdp/a/b/c/x.cer", false⟩]
  refine ⟨c, fs, n, m, ⟨txt "/r/t/rrdp/a/b/c/x.cer", false⟩, ?_, by decide +kernel, ?_, by simp [c], rfl, by decide, rfl,
    by simp [c], rfl, rfl, rfl, by decide +kernel, by simp [fs], ?_, by decide +kernel, by decide +kernel⟩
  · intro n hn
    simp only [c, List.mem_cons, List.not_mem_nil, or_false] at hn
    rcases hn with rfl | rfl
    · exact ⟨by decide, by decide +kernel⟩
    · exact ⟨by decide, by decide +kernel⟩
  · intro e he d hd hp
    have key : ∀ e ∈ fs, ∀ k, k < e.path.length → isUnder (txt "/r/t") (e.path.take k) = true →
        isUnder (e.path.take k) e.path = true → fs.any (fun x => decide (x.path = e.path.take k)) = true := by
      decide +kernel
    have hl := hp.length_le
    simp only [List.length_append, List.length_cons, List.length_nil] at hl
    have hd' : d = e.path.take d.length := by
      obtain ⟨r, hr⟩ := hp
      rw [← hr]
      simp
    have := key e he d.length (by omega) (by rw [← hd', isUnder_iff]; exact hd)
      (by rw [← hd', isUnder_iff]; exact .inr hp)
    rw [List.any_eq_true] at this
    obtain ⟨x, hx, hxe⟩ := this
    rw [← hd'] at hxe
    exact ⟨x, hx, by simpa using hxe⟩
  · refine ⟨txt "/r/t/rrdp/a/b/c", .inr ⟨rfl, ⟨[], txt "/r/t/rrdp/a/b/c", .caged⟩, by decide +kernel, rfl⟩, ?_⟩
    rw [← isUnder_iff]
    decide +kernel

theorem fold_keeps {repo : List Byte} {statFails : List Byte → Bool} {lastWeek : Int} {n : Node} {fs : Fs} {tal : List Byte}
    (hf : lastWeek < n.attemptTs) (hx : statFails n.key = true ∨ fileExists fs n.key = true) :
    ∀ (l : List Node) (s : Cache × Fs), s.1.tal = tal → n ∈ s.1.nodes →
    (∀ e ∈ fs, (∃ a, Area repo tal n a ∧ Under a e.path) → e ∈ s.2) →
    (∀ m ∈ l, m ≠ n → ∀ a b, Area repo tal m a → Area repo tal n b → ¬ Under a b ∧ ¬ Under b a) →
    (l.foldl (cleanupNode repo statFails lastWeek) s).1.tal = tal ∧
    n ∈ (l.foldl (cleanupNode repo statFails lastWeek) s).1.nodes ∧
    ∀ e ∈ fs, (∃ a, Area repo tal n a ∧ Under a e.path) → e ∈ (l.foldl (cleanupNode repo statFails lastWeek) s).2 := by
  intro l
  induction l with
  | nil => intro s h1 h2 h3 _; exact ⟨h1, h2, h3⟩
  | cons m l ih =>
    intro s h1 h2 h3 h4
    rw [List.foldl_cons]
    have hrest := fun x hx => h4 x (List.mem_cons_of_mem m hx)
    rcases cleanupNode_cases repo statFails lastWeek s m with ⟨-, -, h⟩ | ⟨hc, hd, -, hgone, -⟩
    · rw [h]; exact ih s h1 h2 h3 hrest
    · have hne : m ≠ n := by
        rintro rfl
        rcases hc with hc | ⟨hc, hc2⟩
        · omega
        · rcases hx with hx | hx
          · rw [hc] at hx; cases hx
          · unfold fileExists at hx hc2
            rw [List.any_eq_true] at hx
            obtain ⟨e, he, hep⟩ := hx
            simp only [decide_eq_true_eq] at hep
            have := h3 e he ⟨m.key, .inl rfl, by rw [hep]; exact under_refl _⟩
            rw [List.any_eq_false] at hc2
            exact hc2 e this (by simpa using hep)
      refine ih _ (by rw [cleanupNode_tal]; exact h1) ?_ ?_ hrest
      · rw [hd]
        simp only [deleteNode, List.mem_filter]
        exact ⟨h2, by simpa using fun e => hne e.symm⟩
      · intro e he ⟨b, hb, hu⟩
        by_contra hno
        obtain ⟨a, ha, hua⟩ := hgone e (h3 e he ⟨b, hb, hu⟩) hno
        rw [h1] at ha
        have := h4 m List.mem_cons_self hne a b ha hb
        rcases under_total hua hu with h | h
        · exact this.1 h
        · exact this.2 h

/-- **C75, what holds.** A node that was tried in the last week and whose file is there survives the cleanup with all its
files, if none of the places of another node contains, or is inside of, one of its own. -/
theorem C75_partial {repo : List Byte} (hr : repo ≠ []) (statFails : List Byte → Bool) (lastWeek : Int) (c : Cache)
    (ht : c.tal ≠ []) (fs : Fs) (n : Node) (hn : n ∈ c.nodes) (hf : lastWeek < n.attemptTs)
    (hx : statFails n.key = true ∨ fileExists fs n.key = true)
    (hsep : ∀ m ∈ c.nodes, m ≠ n → ∀ a b, Area repo c.tal m a → Area repo c.tal n b → ¬ Under a b ∧ ¬ Under b a) :
    n ∈ (cacheCleanup repo statFails lastWeek c fs).1.nodes ∧
    ∀ e ∈ fs, (∃ a, Area repo c.tal n a ∧ Under a e.path) → e ∈ (cacheCleanup repo statFails lastWeek c fs).2 := by
  obtain ⟨h1, h2, h3⟩ := fold_keeps hf hx c.nodes (c, fs) rfl hn (fun e he _ => he) hsep
  unfold cacheCleanup
  refine ⟨h2, fun e he ha => ?_⟩
  obtain ⟨a, ha, hu⟩ := ha
  by_contra hno
  obtain ⟨-, h⟩ := (deleteUnknown_spec hr _ (by rw [h1]; exact ht) _ e).2.1 (h3 e he ⟨a, ha, hu⟩) hno
  exact (h a (.inr ⟨n, h2, by rw [h1]; exact ha⟩)).1 hu

/-- Two repositories on different hosts; the expired one goes, the fresh one stays. -/
example : (cacheCleanup (txt "/r") (fun _ => false) 100
    ⟨txt "t", [⟨⟨⟨txt "https://a/n", txt "/r/t/https/a/n", .https⟩, true⟩, 50, 0, some 50⟩,
      ⟨⟨⟨txt "https://b/n", txt "/r/t/https/b/n", .https⟩, true⟩, 150, 0, some 150⟩], 0⟩
    [⟨txt "/r/t/https/a/n", false⟩, ⟨txt "/r/t/https/b/n", false⟩, ⟨txt "/r/t/rrdp/a/n/x", false⟩, ⟨txt "/r/t/rrdp/b/n/x", false⟩,
     ⟨txt "/r/t/tal.json", false⟩, ⟨txt "/r/t/junk", false⟩]) =
    (⟨txt "t", [⟨⟨⟨txt "https://b/n", txt "/r/t/https/b/n", .https⟩, true⟩, 150, 0, some 150⟩], 0⟩,
     [⟨txt "/r/t/https/b/n", false⟩, ⟨txt "/r/t/rrdp/b/n/x", false⟩, ⟨txt "/r/t/tal.json", false⟩]) := by
  decide +kernel

/-! ### C77 -/

theorem area_under {repo tal : List Byte} (hr : repo ≠ []) (ht : tal ≠ []) (hts : slash ∉ tal) {n : Node} (hm : Made repo tal n)
    {a : List Byte} (ha : Area repo tal n a) : Under (pathOf repo [tal]) a := by
  have key : ∀ (type : UriType) (cs : List (List Byte)), Under (pathOf repo [tal]) (pathOf repo ([tal, type.dir] ++ cs)) := by
    intro type cs
    refine .inr ⟨type.dir ++ cs.flatMap (fun c => slash :: c), ?_⟩
    simp [pathOf]
  rcases ha with rfl | ⟨-, cage, hc, rfl⟩
  · obtain ⟨cs, -, h, -⟩ := C37_confined hr ht hts _ _ (fun e => absurd e hm.1) _ _ hm.2
    rw [h]; exact key _ _
  · obtain ⟨cs, -, h, -⟩ := C37_confined hr ht hts _ _ (fun _ => by simp) _ _ hc
    rw [h]; exact key _ _

theorem closed_cleanup {repo : List Byte} {statFails : List Byte → Bool} {lastWeek : Int} {root : List Byte} (s : Cache × Fs) (n : Node)
    (h : Closed root s.2) : Closed root (cleanupNode repo statFails lastWeek s n).2 := by
  have rm : ∀ (fs : Fs) p, Closed root fs → Closed root (rmRf fs p) := by
    intro fs p hc e he d hd hp
    rw [mem_rmRf] at he
    obtain ⟨x, hx, hxe⟩ := hc e he.1 d hd hp
    refine ⟨x, mem_rmRf.2 ⟨hx, fun hu => he.2 ?_⟩, hxe⟩
    rw [hxe] at hu
    exact under_trans hu (.inr hp)
  have dn : ∀ (c : Cache) (fs : Fs), Closed root fs → Closed root (deleteNodeAndCage repo c fs n).2 := by
    intro c fs hc
    unfold deleteNodeAndCage
    simp only
    split
    · split
      · exact rm _ _ hc
      · exact hc
    · exact hc
  unfold cleanupNode
  split
  · exact dn _ _ h
  · split
    · exact h
    · exact dn _ _ (rm _ _ h)

theorem fold_shrinks {repo : List Byte} {statFails : List Byte → Bool} {lastWeek : Int} : ∀ (l : List Node) (s : Cache × Fs),
    (l.foldl (cleanupNode repo statFails lastWeek) s).1.tal = s.1.tal ∧
    (∀ n ∈ (l.foldl (cleanupNode repo statFails lastWeek) s).1.nodes, n ∈ s.1.nodes) ∧
    (∀ e ∈ (l.foldl (cleanupNode repo statFails lastWeek) s).2, e ∈ s.2) ∧
    ∀ e ∈ s.2, e ∉ (l.foldl (cleanupNode repo statFails lastWeek) s).2 → ∃ n ∈ l, ∃ a, Area repo s.1.tal n a ∧ Under a e.path := by
  intro l
  induction l with
  | nil => intro s; exact ⟨rfl, fun _ h => h, fun _ h => h, fun e h h' => absurd h h'⟩
  | cons m l ih =>
    intro s
    rw [List.foldl_cons]
    obtain ⟨i1, i2, i3, i4⟩ := ih (cleanupNode repo statFails lastWeek s m)
    have ht := cleanupNode_tal repo statFails lastWeek s m
    rcases cleanupNode_cases repo statFails lastWeek s m with ⟨-, -, h⟩ | ⟨-, hd, hsub, hgone, -⟩
    · rw [h] at i1 i2 i3 i4 ⊢
      refine ⟨i1, i2, i3, fun e he hne => ?_⟩
      obtain ⟨n, hn, r⟩ := i4 e he hne
      exact ⟨n, List.mem_cons_of_mem _ hn, r⟩
    · refine ⟨i1.trans ht, fun n hn => ?_, fun e he => hsub e (i3 e he), fun e he hne => ?_⟩
      · have := i2 n hn
        rw [hd] at this
        exact (List.mem_filter.1 this).1
      · by_cases hm : e ∈ (cleanupNode repo statFails lastWeek s m).2
        · obtain ⟨n, hn, r⟩ := i4 e hm hne
          rw [ht] at r
          exact ⟨n, List.mem_cons_of_mem _ hn, r⟩
        · exact ⟨m, List.mem_cons_self, hgone e he hm⟩

theorem fold_expires {repo : List Byte} {statFails : List Byte → Bool} {lastWeek : Int} {root : List Byte} {n : Node}
    (hu : Under root n.key) : ∀ (l : List Node) (s : Cache × Fs), n ∈ l → Closed root s.2 →
    (n.attemptTs ≤ lastWeek ∨ statFails n.key = false ∧ fileExists s.2 n.key = false) →
    n ∉ (l.foldl (cleanupNode repo statFails lastWeek) s).1.nodes ∧
    ∀ e ∈ (l.foldl (cleanupNode repo statFails lastWeek) s).2, ∀ a, Area repo s.1.tal n a → ¬ Under a e.path := by
  intro l
  induction l with
  | nil => intro s h; cases h
  | cons m l ih =>
    intro s hn hcl hc
    rw [List.foldl_cons]
    have ht := cleanupNode_tal repo statFails lastWeek s m
    have hcl' := closed_cleanup (repo := repo) (statFails := statFails) (lastWeek := lastWeek) s m hcl
    obtain ⟨i1, i2, i3, i4⟩ := fold_shrinks (repo := repo) (statFails := statFails) (lastWeek := lastWeek) l
      (cleanupNode repo statFails lastWeek s m)
    have hsub : ∀ e ∈ (cleanupNode repo statFails lastWeek s m).2, e ∈ s.2 := by
      rcases cleanupNode_cases repo statFails lastWeek s m with ⟨-, -, h⟩ | ⟨-, -, h, -⟩
      · rw [h]; exact fun _ h => h
      · exact h
    have hc' : n.attemptTs ≤ lastWeek ∨ statFails n.key = false ∧
        fileExists (cleanupNode repo statFails lastWeek s m).2 n.key = false := by
      rcases hc with hc | ⟨hc, hc2⟩
      · exact .inl hc
      · refine .inr ⟨hc, ?_⟩
        unfold fileExists at hc2 ⊢
        rw [List.any_eq_false] at hc2 ⊢
        exact fun e he => hc2 e (hsub e he)
    by_cases hmn : m = n
    · subst hmn
      rcases cleanupNode_cases repo statFails lastWeek s m with ⟨h1, h2, -⟩ | ⟨-, hd, -, -, hrm⟩
      · exfalso
        rcases hc with hc | ⟨hc, hc2⟩
        · omega
        · rcases h2 with h2 | h2
          · rw [hc] at h2; cases h2
          · rw [hc2] at h2; cases h2
      · constructor
        · intro h
          have := i2 _ h
          rw [hd] at this
          simpa using (List.mem_filter.1 this).2
        · intro e he a ha
          have he' := i3 e he
          by_cases hk : a = m.key ∧ ¬ (statFails m.key = true ∨ fileExists s.2 m.key = true)
          · intro hue
            obtain ⟨rfl, hno⟩ := hk
            rw [not_or] at hno
            apply hno.2
            unfold fileExists
            rw [List.any_eq_true]
            rcases hue with hue | hue
            · exact ⟨e, hsub e he', by simpa using hue⟩
            · obtain ⟨x, hx, hxe⟩ := hcl e (hsub e he') _ hu hue
              exact ⟨x, hx, by simpa using hxe⟩
          · refine hrm a ha (fun e => ?_) e he'
            by_contra hno
            exact hk ⟨e, hno⟩
    · rcases List.mem_cons.1 hn with h | h
      · exact absurd h.symm hmn
      · have := ih _ h hcl' hc'
        rw [ht] at this
        exact this

/-- **C77.** For a cache of nodes made by the URI module, the cleanup
(1) creates nothing, and leaves everything outside of the TAL's directory alone;
(2) removes every node that was last tried more than a week ago, or whose file is gone, along with all its files;
(3) leaves no file in the TAL's directory other than the index, and those in the places of the remaining nodes (or in the way
of them). -/
theorem C77_cleanup {repo : List Byte} (hr : repo ≠ []) (statFails : List Byte → Bool) (lastWeek : Int) (c : Cache)
    (ht : c.tal ≠ []) (hts : slash ∉ c.tal) (hm : ∀ n ∈ c.nodes, Made repo c.tal n) (fs : Fs) :
    (∀ e ∈ (cacheCleanup repo statFails lastWeek c fs).2, e ∈ fs) ∧
    (∀ e ∈ fs, ¬ Under (pathOf repo [c.tal]) e.path → e ∈ (cacheCleanup repo statFails lastWeek c fs).2) ∧
    (Closed (pathOf repo [c.tal]) fs → ∀ n ∈ c.nodes,
      (n.attemptTs ≤ lastWeek ∨ statFails n.key = false ∧ fileExists fs n.key = false) →
      n ∉ (cacheCleanup repo statFails lastWeek c fs).1.nodes ∧
      ∀ e ∈ (cacheCleanup repo statFails lastWeek c fs).2, ∀ a, Area repo c.tal n a → ¬ Under a e.path) ∧
    ((pathOf repo [c.tal, talJson]).length < maxCapacity →
      ∀ e ∈ (cacheCleanup repo statFails lastWeek c fs).2, e.isDir = false → Under (pathOf repo [c.tal]) e.path →
      ∃ a, (a = pathOf repo [c.tal, talJson] ∨
          ∃ n ∈ (cacheCleanup repo statFails lastWeek c fs).1.nodes, n ∈ c.nodes ∧ Area repo c.tal n a) ∧
        (Under a e.path ∨ Under e.path a)) := by
  obtain ⟨i1, i2, i3, i4⟩ := fold_shrinks (repo := repo) (statFails := statFails) (lastWeek := lastWeek) c.nodes (c, fs)
  unfold cacheCleanup
  have ht' : (c.nodes.foldl (cleanupNode repo statFails lastWeek) (c, fs)).1.tal ≠ [] := by rw [i1]; exact ht
  have spec := fun e => deleteUnknown_spec hr _ ht' (c.nodes.foldl (cleanupNode repo statFails lastWeek) (c, fs)).2 e
  simp only [i1] at spec
  refine ⟨fun e he => i3 e ((spec e).1 he), fun e he hno => ?_, fun hcl n hn hc => ?_, fun hl e he hd hu => ?_⟩
  · by_contra h
    by_cases h2 : e ∈ (c.nodes.foldl (cleanupNode repo statFails lastWeek) (c, fs)).2
    · exact hno ((spec e).2.1 h2 h).1
    · obtain ⟨n, hn, a, ha, hu⟩ := i4 e he h2
      exact hno (under_trans (area_under hr ht hts (hm n hn) ha) hu)
  · obtain ⟨h1, h2⟩ := fold_expires (repo := repo) (statFails := statFails) (lastWeek := lastWeek)
      (area_under hr ht hts (hm n hn) (.inl rfl)) c.nodes (c, fs) hn hcl hc
    exact ⟨h1, fun e he => h2 e ((spec e).1 he)⟩
  · obtain ⟨a, ha, hua⟩ := (spec e).2.2 he hd hu hl
    refine ⟨a, ha.imp id ?_, hua⟩
    rintro ⟨n, hn, ha⟩
    exact ⟨n, hn, i2 n hn, ha⟩

/-- **C77, the index.** The cleanup does not delete the index file. -/
theorem C77_index {repo : List Byte} (hr : repo ≠ []) (statFails : List Byte → Bool) (lastWeek : Int) (c : Cache)
    (ht : c.tal ≠ []) (hts : slash ∉ c.tal) (hm : ∀ n ∈ c.nodes, Made repo c.tal n) (fs : Fs) (e : Entry) (he : e ∈ fs)
    (hp : e.path = pathOf repo [c.tal, talJson]) : e ∈ (cacheCleanup repo statFails lastWeek c fs).2 := by
  obtain ⟨i1, -, -, i4⟩ := fold_shrinks (repo := repo) (statFails := statFails) (lastWeek := lastWeek) c.nodes (c, fs)
  unfold cacheCleanup
  have ht' : (c.nodes.foldl (cleanupNode repo statFails lastWeek) (c, fs)).1.tal ≠ [] := by rw [i1]; exact ht
  have spec := deleteUnknown_spec hr _ ht' (c.nodes.foldl (cleanupNode repo statFails lastWeek) (c, fs)).2 e
  simp only [i1] at spec
  have key : ∀ (type : UriType) (cs : List (List Byte)),
      ¬ Under (pathOf repo ([c.tal, type.dir] ++ cs)) (pathOf repo [c.tal, talJson]) := by
    intro type cs h
    have h1 : pathOf repo ([c.tal, type.dir] ++ cs) <+: pathOf repo [c.tal, talJson] := by
      rcases h with h | h
      · exact ⟨[], by rw [List.append_nil]; exact h.symm⟩
      · exact (List.prefix_append _ _).trans h
    have h2 : type.dir ++ cs.flatMap (fun c => slash :: c) <+: talJson := by
      simp only [pathOf, List.flatMap_append, List.flatMap_cons, List.flatMap_nil, List.append_nil, List.cons_append,
        List.prefix_append_right_inj, List.cons_prefix_cons, List.append_assoc, true_and] at h1
      exact h1
    have h3 : type.dir <+: talJson := (List.prefix_append _ _).trans h2
    revert h3
    cases type <;> decide
  by_contra h
  by_cases h2 : e ∈ (c.nodes.foldl (cleanupNode repo statFails lastWeek) (c, fs)).2
  · exact ((spec.2.1 h2 h).2 _ (.inl rfl)).1 (by rw [hp]; exact under_refl _)
  · obtain ⟨n, hn, a, ha, hu⟩ := i4 e he h2
    rw [hp] at hu
    rcases ha with rfl | ⟨-, cage, hc, rfl⟩
    · obtain ⟨cs, -, h, -⟩ := C37_confined hr ht hts _ _ (fun e => absurd e (hm n hn).1) _ _ (hm n hn).2
      rw [h] at hu; exact key _ _ hu
    · obtain ⟨cs, -, h, -⟩ := C37_confined hr ht hts _ _ (fun _ => by simp) _ _ hc
      rw [h] at hu; exact key _ _ hu

/-- The hypotheses are met: a cache read from an index, a file system with its directories. -/
example : Made (txt "/r") (txt "t") ⟨⟨⟨txt "rsync://a/m/", txt "/r/t/rsync/a/m", .rsync⟩, false⟩, 5, 0, none⟩ :=
  ⟨by decide, by decide +kernel⟩

/-! ### C76 -/

theorem made_prefix {repo tal : List Byte} (hr : repo ≠ []) (ht : tal ≠ []) {n : Node} (h : Made repo tal n) :
    n.url.uri.type.prefix <+: n.url.uri.global := by
  obtain ⟨h1, h2⟩ := h
  rcases C37_mapping hr ht n.url.uri.type none (fun e => absurd e h1) n.url.uri.global with ⟨l, -, h3, -⟩ | ⟨e, -, h3, -⟩ | ⟨-, h3⟩
  · have : specSimple repo tal n.url.uri.type n.url.uri.global = some l := by
      cases ht : n.url.uri.type
      · rw [ht] at h3; exact h3
      · rw [ht] at h3; exact h3
      · exact absurd ht h1
    unfold specSimple at this
    split at this
    · assumption
    · cases this
  · rw [h3] at h2; cases h2
  · rw [h3] at h2; cases h2

theorem node_roundtrip {env : TimeEnv} {repo tal : List Byte} (hr : repo ≠ []) (ht : tal ≠ []) {n : Node} (hm : Made repo tal n)
    (hres : -2147483648 ≤ n.attemptRes ∧ n.attemptRes ≤ 2147483647)
    (htime : ∀ t, t = n.attemptTs ∨ n.success = some t → ∃ s, env.tt2str t = some s ∧ env.str2tt s = some t) :
    ∃ j, node2json env n = some j ∧ json2node env repo tal j = some n := by
  obtain ⟨s, hs1, hs2⟩ := htime n.attemptTs (.inl rfl)
  have hpre := made_prefix hr ht hm
  obtain ⟨⟨u, isNotif⟩, ats, ares, succ⟩ := n
  obtain ⟨hty, hcr⟩ := hm
  simp only at *
  have hres' : ¬ (ares < -2147483648 ∨ 2147483647 < ares) := by omega
  have htype : (if startsWith u.global httpsPrefix then some UriType.https
      else if startsWith u.global rsyncPrefix then some .rsync else none) = some u.type := by
    cases h : u.type with
    | https =>
      rw [h] at hpre
      rw [if_pos (show startsWith u.global httpsPrefix = true from startsWith_iff.2 hpre)]
    | rsync =>
      rw [h] at hpre
      rw [if_neg, if_pos (show startsWith u.global rsyncPrefix = true from startsWith_iff.2 hpre)]
      intro hh
      rw [startsWith_iff] at hh
      have e1 := take_of_prefix hh 1 (by decide)
      have e2 := take_of_prefix hpre 1 (by decide)
      rw [e1] at e2
      revert e2
      decide
    | caged => exact absurd h hty
  cases succ with
  | none =>
    cases isNotif <;>
      refine ⟨_, by simp only [node2json, hs1]; rfl, ?_⟩ <;>
      simp [json2node, member, getTs, htype, hcr, hs2, hres']
  | some t =>
    obtain ⟨s', hs1', hs2'⟩ := htime t (.inr rfl)
    cases isNotif <;>
      refine ⟨_, by simp only [node2json, hs1, hs1']; rfl, ?_⟩ <;>
      simp [json2node, member, getTs, htype, hcr, hs2, hs2', hres']

/-- **C76.** The index that is written at the end of a cycle, read at the beginning of the next one, gives the same nodes: same
URLs, same kind, same local paths, same timestamps and results. -/
theorem C76_roundtrip (env : TimeEnv) {repo : List Byte} (hr : repo ≠ []) (c : Cache) (ht : c.tal ≠ []) (now : Int)
    (hm : ∀ n ∈ c.nodes, Made repo c.tal n)
    (hres : ∀ n ∈ c.nodes, -2147483648 ≤ n.attemptRes ∧ n.attemptRes ≤ 2147483647)
    (htime : ∀ n ∈ c.nodes, ∀ t, t = n.attemptTs ∨ n.success = some t → ∃ s, env.tt2str t = some s ∧ env.str2tt s = some t) :
    cacheCreate env repo c.tal now (some (buildTalJson env c)) = { c with startup := now } := by
  have key : ∀ l : List Node, (∀ n ∈ l, n ∈ c.nodes) →
      (l.filterMap (node2json env)).filterMap (json2node env repo c.tal) = l := by
    intro l
    induction l with
    | nil => intro _; rfl
    | cons n l ih =>
      intro h
      have hn := h n List.mem_cons_self
      obtain ⟨j, hj1, hj2⟩ := node_roundtrip (env := env) hr ht (hm n hn) (hres n hn) (htime n hn)
      rw [List.filterMap_cons_some hj1, List.filterMap_cons_some hj2, ih (fun m hm => h m (List.mem_cons_of_mem _ hm))]
  simp only [cacheCreate, buildTalJson, loadTalJson, key c.nodes (fun _ h => h)]

/-- A JSON object's member has this value, or is not there. -/
def Field (o : Json) (k : String) (v : Option Json) : Prop := member o k = v

/-- **C76, whatever the index has in it**: an entry that is accepted has the URL, the flag, the timestamps and the result that
are written in it, and is made by the URI module; nothing is made up. -/
theorem C76_reads (env : TimeEnv) (repo tal : List Byte) (o : Json) (n : Node) (h : json2node env repo tal o = some n) :
    Made repo tal n ∧ Field o "url" (some (.str n.url.uri.global)) ∧
    (n.url.isNotif = true ↔ Field o "is-rrdp-notification" (some (.bool true))) ∧
    (∃ s, Field o "attempt-timestamp" (some (.str s)) ∧ env.str2tt s = some n.attemptTs) ∧
    (Field o "attempt-result" (some (.int n.attemptRes)) ∨ Field o "attempt-result" none ∧ n.attemptRes = 0) ∧
    (∀ t, n.success = some t → ∃ s, Field o "success-timestamp" (some (.str s)) ∧ env.str2tt s = some t) ∧
    (n.success = none → Field o "success-timestamp" none) := by
  refine ⟨json2node_made h, ?_⟩
  have gts : ∀ k r, getTs env o k = some r → (∀ t, r = some t → ∃ s, Field o k (some (.str s)) ∧ env.str2tt s = some t) ∧
      (r = none → Field o k none) := by
    intro k r hr
    unfold getTs at hr
    unfold Field
    split at hr
    · cases hr
      exact ⟨(fun t ht => by cases ht), fun _ => by assumption⟩
    · rename_i s hs
      cases hst : env.str2tt s with
      | none => rw [hst] at hr; cases hr
      | some t =>
        rw [hst] at hr
        cases hr
        exact ⟨(fun t ht => by cases ht; exact ⟨s, hs, hst⟩), fun h => by cases h⟩
    · cases hr
  unfold json2node at h
  split at h <;> try (cases h; done)
  rename_i url hurl
  simp only at h
  split at h <;> try (cases h; done)
  rename_i type htype
  split at h <;> try (cases h; done)
  rename_i isn hisn
  split at h <;> try (cases h; done)
  rename_i u hu
  split at h <;> try (cases h; done)
  rename_i ts hts
  split at h <;> try (cases h; done)
  rename_i res hres
  split at h <;> cases h
  rename_i suc hsuc
  obtain ⟨hg, -⟩ := uriCreate_fields hu
  refine ⟨by rw [hg]; exact hurl, ?_, (gts _ _ hts).1 _ rfl, ?_, fun t ht => (gts _ _ hsuc).1 t ht, fun ht => (gts _ _ hsuc).2 ht⟩
  · unfold Field
    split at hisn
    · rename_i hm; cases hisn; rw [hm]; simp
    · rename_i b hm; cases hisn; rw [hm]; simp
    · cases hisn
  · unfold Field
    split at hres
    · rename_i hm; cases hres; rw [hm]; simp
    · rename_i i hm
      split at hres
      · cases hres
      · cases hres; exact .inl hm
    · cases hres

/-- Non-vacuity: a cache that meets the hypotheses, with timestamps printed in unary. -/
def unaryEnv : TimeEnv := ⟨fun t => some (List.replicate t.toNat 0x31), fun s => some s.length⟩

example : ∃ c : Cache, c.nodes.length = 2 ∧ (∀ n ∈ c.nodes, Made (txt "/r") c.tal n) ∧
    (∀ n ∈ c.nodes, ∀ t, t = n.attemptTs ∨ n.success = some t → ∃ s, unaryEnv.tt2str t = some s ∧ unaryEnv.str2tt s = some t) := by
  refine ⟨⟨txt "t", [⟨⟨⟨txt "https://a/n", txt "/r/t/https/a/n", .https⟩, true⟩, 5, -22, none⟩,
    ⟨⟨⟨txt "rsync://a/m/", txt "/r/t/rsync/a/m", .rsync⟩, false⟩, 7, 0, some 7⟩], 0⟩, rfl, ?_, ?_⟩
  · intro n hn
    simp only [List.mem_cons, List.not_mem_nil, or_false] at hn
    rcases hn with rfl | rfl
    · exact ⟨by decide, by decide +kernel⟩
    · exact ⟨by decide, by decide +kernel⟩
  · intro n hn t ht
    have : 0 ≤ t := by
      simp only [List.mem_cons, List.not_mem_nil, or_false] at hn
      rcases hn with rfl | rfl
      · rcases ht with rfl | h
        · decide
        · cases h
      · rcases ht with rfl | h
        · decide
        · cases h; decide
    exact ⟨_, rfl, by simp [unaryEnv, this]⟩

end Verif.Cache
