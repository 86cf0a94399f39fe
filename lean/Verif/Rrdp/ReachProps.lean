import Verif.Rrdp.RetryProps
/-
C45: what it means that an update says that there was nothing to do.
-/
namespace Verif.Rrdp
open Verif.Res (Byte)
open Verif.Uri
open Verif.Cache (Url Cfg Op Cache)

/-- **C45, servers that do not answer.** If the server cannot be reached, then an update is successful only if this cycle already
got the notification before; and then it makes no request, and changes nothing. -/
theorem C45_unreachable {env : Env} {w w' : World} {u : Uri} (hty : u.type = .https) (hon : env.cfg.httpEnabled = true)
    (hnodes : ∀ n ∈ w.cache.nodes, n.url.uri.loc = u.loc → n.url.uri.type = .https)
    (hfail : ∀ url : Url, url.uri.loc = u.loc → (env.http w.tick url).result ≠ 0)
    (h : rrdpUpdate env w u = (.ok, w')) :
    w' = w ∧ ∃ n ∈ w.cache.nodes, n.url.uri.loc = u.loc ∧ n.attemptRes = 0 ∧ w.cache.startup ≤ n.attemptTs := by
  unfold rrdpUpdate at h
  simp only at h
  split at h
  · split at h
    · cases h
    · rename_i e changed w1 hget
      split at h
      · cases h
      · rename_i he
        have he0 : e = 0 := by simpa using he
        subst he0
        have hnot : changed = false := by
          cases changed with
          | false => rfl
          | true =>
            obtain ⟨-, url, h1, -, h2, -⟩ := (cacheGet_spec (by simp [hty]) hget).2.2.2 rfl
            exact absurd h2 (hfail url h1)
        subst hnot
        simp only [if_true, Prod.mk.injEq, true_and] at h
        subst h
        unfold cacheGet at hget
        simp only at hget
        have hg : Verif.Cache.getUrl env.repo w.cache.tal ⟨u, true⟩ = .ok ⟨u, true⟩ := by
          unfold Verif.Cache.getUrl; rw [if_pos (by simp [hty])]
        split at hget
        · cases hget
        · rename_i d hd
          rcases Verif.Cache.cacheDownload_cases hd with ⟨e, h1, rfl⟩ | ⟨url, m, h1, h2, h3, rfl⟩ |
            ⟨url, m, op, h1, h2, h3, h4, h5, h6, h7, h8, h9, -⟩
          · rw [hg] at h1; cases h1
          · rw [hg] at h1; cases h1
            simp only [Option.some.injEq, Prod.mk.injEq] at hget
            obtain ⟨hr, -, rfl⟩ := hget
            exact ⟨rfl, m, Verif.Cache.find_mem h2, Verif.Cache.find_key h2, hr, h3⟩
          · rw [hg] at h1; cases h1
            have hloc : m.url.uri.loc = u.loc := h2
            have hhttps : m.url.uri.type = .https := by
              rcases h3 with ⟨hf, -⟩ | ⟨-, rfl⟩
              · exact hnodes m (Verif.Cache.find_mem hf) hloc
              · exact hty
            have hop : op = .http := h9.2 ⟨hhttps, hon⟩
            subst hop
            rw [h4] at hget
            simp only [Option.some.injEq, Prod.mk.injEq] at hget
            obtain ⟨hr, -⟩ := hget
            exact absurd (h5.symm.trans hr) (hfail _ hloc)
  · rename_i hno _
    obtain ⟨hr, -⟩ := Prod.mk.inj h
    exact (hno hr).elim

/-- The hypotheses are met: the server answered in this cycle, and then it does not. -/
example : (rrdpUpdate { Ex.env with http := fun _ _ => ⟨5, 10, false, []⟩ } Ex.w1 Ex.u).1 = .ok ∧
    (rrdpUpdate { Ex.env with http := fun _ _ => ⟨5, 10, false, []⟩ } (Ex.cycle Ex.w1 100) Ex.u).1 = .err := by
  decide +kernel

end Verif.Rrdp
