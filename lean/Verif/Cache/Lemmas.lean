import Verif.Cache.Model
import Verif.Uri.UriProps
/-
Lemmas on the cache's table.
-/
namespace Verif.Cache
open Verif.Res (Byte)
open Verif.Uri

theorem find_update (c : Cache) (n : Node) (k : List Byte) :
    findNode (updateNode c n) k = if k = n.key then (findNode c k).map (fun _ => n) else findNode c k := by
  unfold findNode updateNode
  simp only
  induction c.nodes with
  | nil => simp
  | cons m ms ih =>
    rw [List.map_cons, List.find?_cons, List.find?_cons]
    by_cases h : m.key = n.key
    · rw [if_pos h]
      by_cases hk : n.key = k
      · subst hk; simp [h]
      · simp only [hk, h, decide_false]
        rw [ih]
    · rw [if_neg h]
      by_cases hk : m.key = k
      · subst hk
        simp [h]
      · simp only [hk, decide_false]
        rw [ih]

theorem find_add (c : Cache) (n : Node) (k : List Byte) (h : findNode c n.key = none) :
    findNode (addNode c n) k = if k = n.key then some n else findNode c k := by
  unfold findNode addNode at *
  simp only [List.find?_append]
  by_cases hk : k = n.key
  · subst hk
    rw [if_pos rfl, h]
    simp
  · rw [if_neg hk]
    have : [n].find? (fun m => decide (m.key = k)) = none := by
      have h2 : decide (n.key = k) = false := by simpa using fun e => hk (Eq.symm e)
      rw [List.find?_cons, h2]
      rfl
    rw [this]
    simp

theorem find_key {c : Cache} {k : List Byte} {n : Node} (h : findNode c k = some n) : n.key = k := by
  have := List.find?_some h
  simpa using this

theorem find_mem {c : Cache} {k : List Byte} {n : Node} (h : findNode c k = some n) : n ∈ c.nodes :=
  List.mem_of_find?_eq_some h

/-- What the second half of a download does. -/
theorem fetch_spec {cfg : Cfg} {c : Cache} {n : Node} {resp : Op → Url → Resp} {d : Dl} (hf : findNode c n.key = some n)
    (h : fetch cfg c n resp = some d) :
    ∃ op, d.tried = some (op, n.url) ∧ d.result = (resp op n.url).result ∧ d.cache.startup = c.startup ∧
      d.cache.tal = c.tal ∧ (resp op n.url).now ≠ -1 ∧
      (op = .rsync ↔ n.url.uri.type = .rsync ∧ cfg.rsyncEnabled = true) ∧
      (op = .http ↔ n.url.uri.type = .https ∧ cfg.httpEnabled = true) ∧ n.url.uri.type ≠ .caged ∧
      ∀ k, findNode d.cache k = if k = n.key then
        some { n with attemptTs := (resp op n.url).now, attemptRes := (resp op n.url).result,
                      success := if (resp op n.url).result = 0 then some (resp op n.url).now else n.success }
        else findNode c k := by
  unfold fetch at h
  have key : ∀ op, (let r := resp op n.url
      if r.now = -1 then none
      else
        let n := { n with attemptTs := r.now, attemptRes := r.result, success := if r.result = 0 then some r.now else n.success }
        some (⟨r.result, updateNode c n, some (op, n.url)⟩ : Dl)) = some d →
      d.tried = some (op, n.url) ∧ d.result = (resp op n.url).result ∧ d.cache.startup = c.startup ∧ d.cache.tal = c.tal ∧
      (resp op n.url).now ≠ -1 ∧
      ∀ k, findNode d.cache k = if k = n.key then
        some { n with attemptTs := (resp op n.url).now, attemptRes := (resp op n.url).result,
                      success := if (resp op n.url).result = 0 then some (resp op n.url).now else n.success }
        else findNode c k := by
    intro op h
    simp only at h
    split at h
    · cases h
    · rename_i hn
      cases h
      refine ⟨rfl, rfl, rfl, rfl, hn, ?_⟩
      intro k
      simp only
      rw [find_update]
      simp only [Node.key] at hf ⊢
      by_cases hk : k = n.url.uri.loc
      · subst hk
        simp [hf]
      · simp [hk]
  cases ht : n.url.uri.type with
  | rsync =>
    rw [ht] at h
    obtain ⟨h1, h2, h3, h4, h5, h6⟩ := key _ h
    refine ⟨_, h1, h2, h3, h4, h5, ?_, ?_, by simp, h6⟩ <;> cases cfg.rsyncEnabled <;> simp
  | https =>
    rw [ht] at h
    obtain ⟨h1, h2, h3, h4, h5, h6⟩ := key _ h
    refine ⟨_, h1, h2, h3, h4, h5, ?_, ?_, by simp, h6⟩ <;> cases cfg.httpEnabled <;> simp
  | caged => rw [ht] at h; cases h

/-- What a request does, by cases. -/
theorem cacheDownload_cases {cfg : Cfg} {repo : List Byte} {c : Cache} {u : Url} {resp : Op → Url → Resp} {d : Dl}
    (h : cacheDownload cfg repo c u resp = some d) :
    (∃ e, getUrl repo c.tal u = .err e ∧ d = ⟨errCode e, c, none⟩) ∨
    (∃ url n, getUrl repo c.tal u = .ok url ∧ findNode c url.uri.loc = some n ∧ c.startup ≤ n.attemptTs ∧
      d = ⟨n.attemptRes, c, none⟩) ∨
    (∃ url n op, getUrl repo c.tal u = .ok url ∧ n.key = url.uri.loc ∧
      (findNode c url.uri.loc = some n ∧ n.attemptTs < c.startup ∨
        findNode c url.uri.loc = none ∧ n = ⟨url, 0, 0, none⟩) ∧
      d.tried = some (op, n.url) ∧ d.result = (resp op n.url).result ∧ d.cache.startup = c.startup ∧
      d.cache.tal = c.tal ∧ 
      (op = .rsync ↔ n.url.uri.type = .rsync ∧ cfg.rsyncEnabled = true) ∧
      (op = .http ↔ n.url.uri.type = .https ∧ cfg.httpEnabled = true) ∧
      ∀ k, findNode d.cache k = if k = n.key then
        some { n with attemptTs := (resp op n.url).now, attemptRes := (resp op n.url).result,
                      success := if (resp op n.url).result = 0 then some (resp op n.url).now else n.success }
        else findNode c k) := by
  unfold cacheDownload at h
  cases hg : getUrl repo c.tal u with
  | crash => rw [hg] at h; cases h
  | err e => rw [hg] at h; cases h; exact .inl ⟨e, rfl, rfl⟩
  | ok url =>
    rw [hg] at h
    simp only at h
    cases hf : findNode c url.uri.loc with
    | some n =>
      rw [hf] at h
      simp only at h
      split at h
      · rename_i hr
        cases h
        refine .inr (.inl ⟨url, n, rfl, hf, ?_, rfl⟩)
        simp only [wasRecentlyDownloaded, decide_eq_true_eq] at hr
        omega
      · rename_i hr
        have hk := find_key hf
        obtain ⟨op, h1, h2, h3, h4, h5, h6, h7, h8, h9⟩ := fetch_spec (by rw [hk]; exact hf) h
        refine .inr (.inr ⟨url, n, op, rfl, hk, .inl ⟨hf, ?_⟩, h1, h2, h3, h4, h6, h7, h9⟩)
        simp only [wasRecentlyDownloaded, decide_eq_true_eq] at hr
        omega
    | none =>
      rw [hf] at h
      simp only at h
      have hadd : ∀ k, findNode (addNode c ⟨url, 0, 0, none⟩) k = if k = url.uri.loc then some ⟨url, 0, 0, none⟩
          else findNode c k := fun k => find_add c ⟨url, 0, 0, none⟩ k hf
      obtain ⟨op, h1, h2, h3, h4, h5, h6, h7, h8, h9⟩ := fetch_spec (n := ⟨url, 0, 0, none⟩)
        (by rw [hadd]; simp [Node.key]) h
      refine .inr (.inr ⟨url, ⟨url, 0, 0, none⟩, op, rfl, rfl, .inr ⟨hf, rfl⟩, h1, h2, h3, h4, h6, h7, ?_⟩)
      intro k
      rw [h9, hadd]
      simp only [Node.key]
      by_cases hk : k = url.uri.loc
      · simp [hk]
      · simp [hk]

end Verif.Cache
