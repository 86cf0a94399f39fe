import Verif.Rrdp.Lemmas
/-
Lemmas about the RRDP model: where the files are.
-/
namespace Verif.Rrdp
open Verif.Res (Byte)
open Verif.Uri
open Verif.Cache (Url Cfg Op Cache)

/-! ### Places -/

theorem splitSlash_append (a b : List Byte) : splitSlash (a ++ [slash] ++ b) = splitSlash a ++ splitSlash b := by
  induction a with
  | nil => simp [splitSlash]
  | cons c a ih =>
    simp only [List.cons_append, splitSlash]
    split
    · simp only [List.cons_append, List.cons.injEq, true_and]
      simpa using ih
    · have h := ih
      rw [List.append_assoc, List.singleton_append] at h
      simp only [List.append_assoc, List.singleton_append, List.cons_append, List.nil_append]
      rw [h]
      cases e : splitSlash a with
      | nil => exact absurd e (splitSlash_ne a)
      | cons t ts => simp

theorem In_split {dir p : List Byte} (h : In dir p) : splitSlash dir <+: splitSlash p := by
  rcases h with rfl | ⟨r, rfl⟩
  · exact List.prefix_rfl
  · rw [splitSlash_append]; exact List.prefix_append _ _

/-- The hypotheses about a TAL's directory. -/
structure Place (env : Env) (tal : List Byte) : Prop where
  hrepo : env.repo ≠ []
  htal : tal ≠ []
  hseg : slash ∉ tal

theorem isCage_iff {env : Env} {tal : List Byte} {u : Uri} {cage : List Byte} :
    IsCage env tal u cage ↔ ∃ pb, getRrdpWorkspace env.repo (some tal) u.global = .ok pb ∧ pb.str = cage := by
  unfold IsCage uriCreate
  have h0 : str2global [] = .ok [] := rfl
  simp only [h0, ok_bind, autocompleteLocal, mapCaged, if_true]
  cases getRrdpWorkspace env.repo (some tal) u.global with
  | ok pb => 
    simp only [ok_bind]
    constructor
    · rintro ⟨c, h, rfl⟩; cases h; exact ⟨pb, rfl, rfl⟩
    · rintro ⟨pb', h, rfl⟩; cases h; exact ⟨_, rfl, rfl⟩
  | err e => 
    constructor
    · rintro ⟨c, h, rfl⟩; cases h
    · rintro ⟨c, h, rfl⟩; cases h
  | crash => 
    constructor
    · rintro ⟨c, h, rfl⟩; cases h
    · rintro ⟨c, h, rfl⟩; cases h

theorem cage_split {env : Env} {tal : List Byte} (hp : Place env tal) {u : Uri} {cage : List Byte} (h : IsCage env tal u cage) :
    ∃ cs, splitSlash cage = splitSlash env.repo ++ [tal, rrdpName] ++ cs := by
  obtain ⟨c, h, rfl⟩ := h
  obtain ⟨cs, e, -, -⟩ := C37_confined hp.hrepo hp.htal hp.hseg .caged (some u) (by simp) [] c h
  exact ⟨cs, e⟩

/-- Files got by https are not in a repository's directory. -/
theorem https_not_in {env : Env} {tal : List Byte} (hp : Place env tal) {u : Uri} {cage : List Byte} (h : IsCage env tal u cage)
    {g : List Byte} {v : Uri} (hv : uriCreate env.repo (some tal) .https none g = .ok v) : ¬ In cage v.loc := by
  intro hin
  obtain ⟨cs, e⟩ := cage_split hp h
  obtain ⟨ds, e', -, -⟩ := C37_confined hp.hrepo hp.htal hp.hseg .https none (by simp) g v hv
  have := In_split hin
  rw [e, e'] at this
  simp only [List.append_assoc, List.prefix_append_right_inj, List.cons_append, List.nil_append, List.cons_prefix_cons] at this
  exact absurd this.2.1 (by decide)

/-- The files a document is about are in the repository's directory. -/
theorem pathAttr_in {env : Env} {tal : List Byte} (hp : Place env tal) {u : Uri} {cage : List Byte} (h : IsCage env tal u cage)
    {n : XNode} {p : List Byte} (hn : PathAttr env tal u n p) : In cage p := by
  obtain ⟨s, v, -, hv, rfl⟩ := hn
  obtain ⟨c, hc, rfl⟩ := h
  rcases C37_mapping hp.hrepo hp.htal .caged (some u) (by simp) [] with ⟨l, -, h1, h2⟩ | ⟨e, -, h2, -⟩ | ⟨-, h2⟩
  · rw [h2] at hc; cases hc
    rcases C37_mapping hp.hrepo hp.htal .caged (some u) (by simp) s with ⟨l', -, h1', h2'⟩ | ⟨e, -, h2', -⟩ | ⟨-, h2'⟩
    · rw [h2'] at hv; cases hv
      simp only [specLocal, specCaged, if_true] at h1 h1'
      split at h1'
      · cases h1'
      · rename_i cage hcage
        rw [hcage] at h1
        cases h1
        split at h1'
        · cases h1'; exact .inl rfl
        · split at h1'
          · obtain ⟨cs, -, rfl⟩ := Option.map_eq_some_iff.1 h1'
            cases cs with
            | nil => exact .inl (by simp [pathOf])
            | cons c cs => exact .inr ⟨c ++ cs.flatMap (fun c => slash :: c), by simp [pathOf]⟩
          · cases h1'
    · rw [h2'] at hv; cases hv
    · rw [h2'] at hv; cases hv
  · rw [h2] at hc; cases hc
  · rw [h2] at hc; cases hc

/-! ### Changes inside a directory -/

/-- The file a change is about. -/
def Change.path : Change → List Byte
  | .publish p _ _ => p
  | .withdraw p _ => p

theorem lists_in {env : Env} {tal : List Byte} (hp : Place env tal) {u : Uri} {cage : List Byte} (h : IsCage env tal u cage)
    {b : Bool} {s : Session} {ns : List XNode} {cs : List Change} (hl : Lists env tal u b s ns cs) : ∀ c ∈ cs, In cage c.path := by
  induction hl with
  | nil => simp
  | publish n t rest p v c e cs h1 h2 hpa hv hc he r ih =>
    intro x hx
    rcases List.mem_cons.1 hx with rfl | hx
    · exact pathAttr_in hp h hpa
    · exact ih x hx
  | withdraw n rest p y cs hd h1 h2 hpa hx r ih =>
    intro x hx
    rcases List.mem_cons.1 hx with rfl | hx
    · exact pathAttr_in hp h hpa
    · exact ih x hx
  | root n rest cs h1 h2 hs r ih => exact ih
  | other n rest cs h r ih => exact ih

theorem only_set {cage p : List Byte} (h : In cage p) (d : Disk) (v : Option (List Byte)) :
    only cage (d.set p v) = (only cage d).set p v := by
  funext q
  unfold only Disk.set
  by_cases hq : q = p
  · subst hq; rw [if_pos h, if_pos rfl, if_pos rfl]
  · rw [if_neg hq, if_neg hq]

theorem only_has {sha : List Byte → List Byte} {cage p x : List Byte} (h : In cage p) {d : Disk} (hh : Has sha d p x) :
    Has sha (only cage d) p x := by
  obtain ⟨o, h1, h2⟩ := hh
  exact ⟨o, by unfold only; rw [if_pos h]; exact h1, h2⟩

/-- Changes inside a directory have the same effect there whatever is elsewhere, and none elsewhere. -/
theorem applies_only {sha : List Byte → List Byte} {cage : List Byte} {d d' : Disk} {cs : List Change} (h : Applies sha d cs d')
    (hin : ∀ c ∈ cs, In cage c.path) : Applies sha (only cage d) cs (only cage d') ∧ ∀ q, ¬ In cage q → d' q = d q := by
  induction h with
  | nil d => exact ⟨.nil _, fun _ _ => rfl⟩
  | publish d d' p e c cs hh r ih =>
    have hp : In cage p := hin _ (List.mem_cons_self ..)
    obtain ⟨i1, i2⟩ := ih (fun c hc => hin c (List.mem_cons_of_mem _ hc))
    rw [only_set hp] at i1
    refine ⟨.publish _ _ _ _ _ _ (fun x hx => only_has hp (hh x hx)) i1, fun q hq => ?_⟩
    rw [i2 q hq]
    unfold Disk.set
    rw [if_neg (fun (e : q = p) => hq (e ▸ hp))]
  | withdraw d d' p x cs hh r ih =>
    have hp : In cage p := hin _ (List.mem_cons_self ..)
    obtain ⟨i1, i2⟩ := ih (fun c hc => hin c (List.mem_cons_of_mem _ hc))
    rw [only_set hp] at i1
    refine ⟨.withdraw _ _ _ _ _ (only_has hp hh) i1, fun q hq => ?_⟩
    rw [i2 q hq]
    unfold Disk.set
    rw [if_neg (fun (e : q = p) => hq (e ▸ hp))]

theorem only_congr {cage : List Byte} {d d' : Disk} (h : ∀ q, In cage q → d' q = d q) : only cage d' = only cage d := by
  funext q
  unfold only
  split
  · exact h q (by assumption)
  · rfl

/-! ### Downloads -/

theorem cacheGet_spec {env : Env} {w w' : World} {u : Url} {e : Int} {ch : Bool} (ht : u.uri.type ≠ .rsync)
    (h : cacheGet env w u = some (e, ch, w')) :
    w'.cache.tal = w.cache.tal ∧ w.tick ≤ w'.tick ∧
    (ch = false → w'.disk = w.disk) ∧
    (ch = true → e = 0 ∧ ∃ url : Url, url.uri.loc = u.uri.loc ∧ (url = u ∨ ∃ n ∈ w.cache.nodes, n.url = url) ∧
      (env.http w.tick url).result = 0 ∧ (env.http w.tick url).changed = true ∧
      w'.disk = w.disk.set u.uri.loc (some (env.http w.tick url).body)) := by
  unfold cacheGet at h
  have hg : Verif.Cache.getUrl env.repo w.cache.tal u = .ok u := by
    unfold Verif.Cache.getUrl; rw [if_pos ht]
  simp only at h
  split at h
  · cases h
  · rename_i d hd
    rcases Verif.Cache.cacheDownload_cases hd with ⟨e, h1, rfl⟩ | ⟨url, m, h1, h2, h3, rfl⟩ | ⟨url, m, op, h1, h2, h3, h4, h5, h6, h7, h8⟩
    · rw [hg] at h1; cases h1
    · simp only [Option.some.injEq, Prod.mk.injEq] at h
      obtain ⟨rfl, rfl, rfl⟩ := h
      exact ⟨rfl, Nat.le_refl _, fun _ => rfl, (fun h => by cases h)⟩
    · rw [hg] at h1; cases h1
      rw [h4] at h
      have hmem : m.url = u ∨ ∃ n ∈ w.cache.nodes, n.url = m.url := by
        rcases h3 with ⟨hf, -⟩ | ⟨-, rfl⟩
        · exact .inr ⟨m, Verif.Cache.find_mem hf, rfl⟩
        · exact .inl rfl
      have hk : m.url.uri.loc = u.uri.loc := h2
      cases op with
      | http =>
        simp only [Option.some.injEq, Prod.mk.injEq] at h
        obtain ⟨rfl, rfl, rfl⟩ := h
        refine ⟨h7, Nat.le_succ _, fun hc => ?_, fun hc => ?_⟩
        · simp only [hc, Bool.false_eq_true, if_false]
        · have hc' := hc
          simp only [Bool.and_eq_true, decide_eq_true_eq] at hc'
          refine ⟨hc'.1, m.url, hk, hmem, ?_, hc'.2, ?_⟩
          · rw [h5] at hc'; exact hc'.1
          · simp only [hc, if_true, hk]
      | rsync =>
        simp only [Option.some.injEq, Prod.mk.injEq] at h
        obtain ⟨rfl, rfl, rfl⟩ := h
        exact ⟨h7, Nat.le_succ _, fun _ => rfl, (fun h => by cases h)⟩
      | check =>
        simp only [Option.some.injEq, Prod.mk.injEq] at h
        obtain ⟨rfl, rfl, rfl⟩ := h
        exact ⟨h7, Nat.le_succ _, fun _ => rfl, (fun h => by cases h)⟩

theorem cacheGet_else {env : Env} {w w' : World} {u : Url} {e : Int} {ch : Bool} (ht : u.uri.type ≠ .rsync)
    (h : cacheGet env w u = some (e, ch, w')) (q : List Byte) (hq : q ≠ u.uri.loc) : w'.disk q = w.disk q := by
  obtain ⟨-, -, h1, h2⟩ := cacheGet_spec ht h
  cases ch with
  | false => rw [h1 rfl]
  | true =>
    obtain ⟨-, url, -, -, -, -, e⟩ := h2 rfl
    rw [e]; unfold Disk.set; rw [if_neg hq]

theorem deleteFile_else (env : Env) (d : Disk) (p q : List Byte) (hq : q ≠ p) : (deleteFile env d p).2 q = d q := by
  unfold deleteFile
  split
  · rfl
  · simp only; unfold Disk.set; rw [if_neg hq]

theorem parseFile_ok {env : Env} {d d' : Disk} {m : Meta} {cb : Disk → XNode → List XNode → Out × Bool × Disk}
    (h : parseFile env d m cb = (.ok, d')) :
    ∃ c, env.sha c = m.hash.getD [] ∧ readLoop cb (env.xml c).endOk (env.xml c).nodes d = (.ok, d') := by
  unfold parseFile at h
  split at h
  · rename_i hv
    split at h
    · simp at h
    · rename_i c hc
      obtain ⟨c', hc', hsha⟩ := validateHash_ok hv
      rw [hc] at hc'; cases hc'
      unfold relaxNgParse at h
      split at h
      · exact ⟨c, hsha, h⟩
      · simp at h
  · rename_i hno
    simp only [Prod.mk.injEq] at h
    exact absurd h.1 hno

/-- A successful download-and-follow: some file with the listed hash was followed. Elsewhere than in the repository and the
downloaded file, nothing changes, even if it failed. -/
theorem getAndParse_ok {env : Env} {tal : List Byte} (hp : Place env tal) {u : Uri} {cage : List Byte}
    (hcage : IsCage env tal u cage) {w w' : World} {m : Meta} {g : List Byte}
    (hm : uriCreate env.repo (some tal) .https none g = .ok m.uri) (hty : m.uri.type = .https) {isDelta : Bool} {s : Session}
    (h : getAndParse env w m (if isDelta then xmlReadDelta env tal u (some s) else xmlReadSnapshot env tal u (some s)) = (.ok, w')) :
    ∃ c cs, env.sha c = m.hash.getD [] ∧ Lists env tal u isDelta s (env.xml c).nodes cs ∧
      Applies env.sha (only cage w.disk) cs (only cage w'.disk) ∧
      ∀ q, ¬ In cage q → q ≠ m.uri.loc → w'.disk q = w.disk q := by
  have hnin := https_not_in hp hcage hm
  unfold getAndParse at h
  split at h
  · simp at h
  · rename_i e ch w1 hget
    have hne : (⟨m.uri, false⟩ : Url).uri.type ≠ .rsync := by simp [hty]
    have hel := cacheGet_else hne hget
    split at h
    · simp at h
    · simp only [Prod.mk.injEq] at h
      obtain ⟨h, rfl⟩ := h
      obtain ⟨c, hsha, hloop⟩ := parseFile_ok (Prod.ext h rfl)
      obtain ⟨cs, hl, ha⟩ := readLoop_follows env tal u isDelta s _ _ _ _ _ (Nat.le_refl _) hloop
      obtain ⟨a1, a2⟩ := applies_only ha (lists_in hp hcage hl)
      have h0 : only cage w1.disk = only cage w.disk :=
        only_congr (fun q hq => hel q (fun e => hnin (e ▸ hq)))
      refine ⟨c, cs, hsha, hl, ?_, ?_⟩
      · rw [h0] at a1
        have : ∀ d, only cage (deleteFile env d m.uri.loc).2 = only cage d :=
          fun d => only_congr (fun q hq => deleteFile_else env _ _ q (fun e => hnin (e ▸ hq)))
        simp only
        rw [this]
        exact a1
      · intro q hq hq'
        simp only
        rw [deleteFile_else _ _ _ _ hq']
        exact (a2 q hq).trans (hel q hq')

end Verif.Rrdp
